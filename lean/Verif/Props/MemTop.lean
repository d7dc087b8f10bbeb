import Verif.Proofs.MemTopRun
import Verif.Props.Lsu
import Verif.Props.MemRoute

/-
C113: load/store unit, routing block, data cache and interconnect together.
-/
namespace Verif.Props

open Verif.MemTop
open Verif.Ring Verif.Spec.ByteMem Verif.Spec.MemOrder Verif.Spec.CacheMem
open Verif.Lsu (mmioAddr)
open Verif.Dcache (Line LdResp setOf)
open Verif.MemRoute (Event IResp RespOut)

/-- What the routing block hands out in the first part of a cycle, with the cache's answers it is made from. -/
def handedOut {p : Nat} (s : MemTop.State p) (resp : Option Nat) (ack fill : Bool) : Option (RespOut p × List LdResp) :=
  (s.d.step (.tick true [] [] resp ack)).map fun x => ((MemRoute.combResponse s.rt.route (answers s.rt.ports x.2.loads) fill).2, x.2.loads)

/-- `v` is the word at `a` in the memory `m` after some of the committed stores of the program, in program order, the first `gone` of
them included. -/
def WordNow (dev : BitVec 32 → Bool) (m : Mem) (p : Prog) (gone : Nat) (a v : BitVec 32) : Prop :=
  ∃ done : Nat → Bool, (∀ k < gone, done k = true) ∧
    v = word (replay dev m (fun k => if done k then (p.slots k).outcome else none) p.committed) a

section
variable {p n : Nat} {mem : BitVec 32 → Line} {s : MemTop.State p}

/-- **C113 (loads; partial).**  Full statement: every load that is ready to report a value, and is not a device access, has the bytes left
by the stores that precede it in the program (`Returns`).  Missing: the loads marked `badFwd`, that is, forwarded from a store that turned
out to have no effect (C53), or answered from a line being filled that had already taken in a store (C58); for the latter it is false,
`C113_stale`. -/
theorem C113_load_partial (hn : 0 < n) (hn2 : n ≤ 2 ^ 32) (h : MemTop.Reach p n mem s) (i : Nat) (hst : (s.u.lsu.ldq i).st = .readyToWb)
    (hm : (s.u.lsu.ldq i).mmio = false) (hb : s.u.badFwd i = false) :
    Returns mmioAddr (flat mem) s.u.prog (s.u.prog.loads i) (s.u.lsu.ldq i).paddr (s.u.lsu.ldq i).result :=
  ((ok_reach hn hn2 h).inv.load i).val hst hm hb

/-- **C113 (drained).**  Between cycles, when the store queue is empty and the cache holds nothing back, the memory behind the
interconnect is the initial memory after all stores of the program so far, in program order. -/
theorem C113_drained (hn : 0 < n) (hn2 : n ≤ 2 ^ 32) (h : MemTop.Reach p n mem s) (hph : s.ph = none) (he : s.u.lsu.count = 0)
    (hd : ∀ a, ¬ heldBack s.d.d a) : flat s.d.mem = replay mmioAddr (flat mem) (fun k => (s.u.prog.slots k).outcome) s.u.prog.len := by
  have hok := ok_reach hn hn2 h
  have hp := hok.ph
  unfold PhOk at hp
  rw [hph] at hp
  obtain ⟨_, _, pl, qs, _, _, h5, h6⟩ := hp
  have hq : qs = [] := by
    cases qs with
    | nil => rfl
    | cons q qs =>
      obtain ⟨k, h1, h2, _⟩ := hok.inv.pending (h5.pend q (List.mem_cons_self ..))
      have h7 := hok.inv.ring.count
      have h8 := hok.inv.ring.le1
      omega
  subst hq
  obtain ⟨B, _, hJ⟩ := run_j h6
  have hst := hJ.st
  rw [List.map_nil, List.append_eq_nil_iff] at hst
  rw [C59_drained h6 (List.map_eq_nil_iff.mp hst.1) hd]
  exact drained_of_inv hok.inv he

/-- **C113 (no abort).**  None of the assertions of the parts fails. -/
theorem C113_no_abort (hn : 0 < n) (hn2 : n ≤ 2 ^ 32) (h : MemTop.Reach p n mem s) {e : MemTop.Ev} (hv : s.Valid n e) :
    (s.step n e).isSome = true := by
  obtain ⟨s', h1, _⟩ := ok_step hn hn2 (ok_reach hn hn2 h) hv
  rw [h1]; rfl

/-- **C113 (answered).**  Every load and store request of a cycle is answered in the first part of the next one. -/
theorem C113_answered (hn : 0 < n) (hn2 : n ≤ 2 ^ 32) (h : MemTop.Reach p n mem s) {resp : Option Nat} {ack fill : Bool}
    (hv : s.Valid n (.out resp ack fill)) {s' : MemTop.State p} (hs : s.step n (.out resp ack fill) = some s') :
    (∀ i, (s'.u.lsu.ldq i).st ≠ .waitDcacheResp) ∧ (∀ i, (s'.u.lsu.stq i).st ≠ .waitDcacheResp) := by
  obtain ⟨s1, h1, _, h2⟩ := ok_out hn hn2 (ok_reach hn hn2 h) hv
  rw [hs] at h1
  injection h1 with h1
  subst h1
  exact h2

/-- A word of the cache is a word of the memory at this moment. -/
theorem wordNow_hit (hn : 0 < n) (hn2 : n ≤ 2 ^ 32) (h : Ok n mem s) {resp : Option Nat} {ack : Bool} (hph : s.ph = none)
    (hv : s.d.Valid (.tick true [] [] resp ack)) {d' : Dcache.Sys} {o : Dcache.Output} (hs : s.d.step (.tick true [] [] resp ack) = some (d', o))
    {r : LdResp} (hr : r ∈ o.loads) (hh : r.replay = .hit) (hl : r.late = false) :
    WordNow mmioAddr (flat mem) s.u.prog s.u.retired r.req.addr r.data := by
  have hp := h.ph
  unfold PhOk at hp
  rw [hph] at hp
  obtain ⟨_, _, pl, qs, _, _, h5, h6⟩ := hp
  obtain ⟨k, hk⟩ := C58_load_value_partial h6 hv hs hr hh hl
  obtain ⟨_, hsa⟩ := (C57_answers h6 hv hs).1 rfl
  obtain ⟨u', a, b, c⟩ := takeStores_pre hn hn2 k o.stores qs s.u h.inv hsa h5
  obtain ⟨dn, d1, d2⟩ := memory_of_inv a
  rw [b.retired] at d1
  rw [b.prog, c] at d2
  exact ⟨dn, d1, by rw [hk, d2]⟩

/-- The answer on a port, and the cache's answer behind it. -/
theorem port_hit {mem : BitVec 32 → Line} {rt : MemRoute.Sys p} {d d' : Dcache.Sys} {M : Mem} {st : List Dcache.St} {o : Dcache.Output}
    {resp : Option Nat} {ack : Bool} (hr : Run mem d M (lds rt.ports rt.probe) st) (hv : d.Valid (.tick true [] [] resp ack))
    (hs : d.step (.tick true [] [] resp ack) = some (d', o)) {i : Fin (p + 1)} {q : MemRoute.Req} {a : MemRoute.Resp}
    (hq : rt.ports i = some q) (ha : answers rt.ports o.loads i = some a) :
    ∃ r ∈ o.loads, r.req.addr = q.addr ∧ r.req.id = q.id ∧ r.req.probe = decide (rt.probe = some i) ∧ r.data = a.data ∧ r.replay = a.replay := by
  have := answers_port ((C57_answers hr hv hs).1 rfl).1 i
  rw [hq] at this
  obtain ⟨r, h1, h2, h3⟩ := this
  rw [h3] at ha
  injection ha with ha
  refine ⟨r, h1, ?_, ?_, ?_, ?_, ?_⟩
  · rw [h2]; rfl
  · rw [h2]; rfl
  · rw [h2]; rfl
  · rw [← ha]; rfl
  · rw [← ha]; rfl

/-- **C113 (walker; partial).**  A word handed to the page-table walker is the word at the walker's address in the memory of this moment:
every store that has left the queue is in it, no store that has not committed is.  Missing: a word the cache answered from a line being
filled that had already taken in a store. -/
theorem C113_walker_partial (hn : 0 < n) (hn2 : n ≤ 2 ^ 32) (h : MemTop.Reach p n mem s) {resp : Option Nat} {ack fill : Bool}
    (hv : s.Valid n (.out resp ack fill)) {x : RespOut p × List LdResp} (hx : handedOut s resp ack fill = some x) {ev : Event}
    (he : x.1.event = some ev) (hl : ∀ r ∈ x.2, r.req.id = ev.id → r.late = false) :
    asked s.rt.last ev.owner = some ev.addr ∧ WordNow mmioAddr (flat mem) s.u.prog s.u.retired ev.addr ev.data := by
  have hok := ok_reach hn hn2 h
  obtain ⟨⟨d', o⟩, hs, hx⟩ := Option.map_eq_some_iff.mp hx
  subst hx
  have hp := hok.ph
  unfold PhOk at hp
  rw [hv.1] at hp
  obtain ⟨_, _, pl, qs, _, _, h5, h6⟩ := hp
  have hrv := route_valid h6 hv.2 hs fill { lsu := fun _ => none } (by intro i q hq; cases hq)
  obtain ⟨h0, h1, h2⟩ : asked s.rt.last ev.owner = some ev.addr ∧ s.rt.ports (Fin.last p) = some { addr := ev.addr, id := ev.id } ∧
      answers s.rt.ports o.loads (Fin.last p) = some { id := ev.id, data := ev.data, replay := .hit } := by
    generalize ha : answers s.rt.ports o.loads = ans at *
    dsimp only at he
    have hr := hok.route
    generalize s.rt = rt at *
    cases hr with
    | init =>
      have ho : ({} : MemRoute.Sys p).route.owner = .none := rfl
      rw [RouteLemmas.cr_event, RouteLemmas.own_answer (RouteLemmas.reach_inv .init) hrv, if_pos ho] at he
      cases he
    | step hr hvc =>
      have := C64_walker hr hvc hrv he
      exact ⟨this.2.1, this.2.2.1, this.2.2.2⟩
  obtain ⟨r, m1, m2, m3, _, m4, m5⟩ := port_hit h6 hv.2 hs h1 h2
  have := wordNow_hit hn hn2 hok hv.1 hv.2 hs m1 (by rw [m5]) (hl r m1 m3)
  rw [m2, m4] at this
  exact ⟨h0, this⟩

/-- **C113 (instruction cache).**  A word with which a look-up of the instruction cache is answered is the word, at the address looked up,
in the memory of this moment. -/
theorem C113_icache (hn : 0 < n) (hn2 : n ≤ 2 ^ 32) (h : MemTop.Reach p n mem s) {resp : Option Nat} {ack fill : Bool}
    (hv : s.Valid n (.out resp ack fill)) {x : RespOut p × List LdResp} (hx : handedOut s resp ack fill = some x) {w : BitVec 32}
    (he : x.1.icache = some (.hit w)) :
    ∃ a, s.rt.last.icache = some a ∧ WordNow mmioAddr (flat mem) s.u.prog s.u.retired a w := by
  have hok := ok_reach hn hn2 h
  obtain ⟨⟨d', o⟩, hs, hx⟩ := Option.map_eq_some_iff.mp hx
  subst hx
  have hp := hok.ph
  unfold PhOk at hp
  rw [hv.1] at hp
  obtain ⟨_, _, pl, qs, _, _, h5, h6⟩ := hp
  have hrv := route_valid h6 hv.2 hs fill { lsu := fun _ => none } (by intro i q hq; cases hq)
  obtain ⟨c1, c2⟩ := C64_icache hok.route hrv
  have he' := c1.symm.trans he
  by_cases hpr : s.rt.probe = some (Fin.last p)
  · rw [if_pos hpr] at he'
    obtain ⟨_, g2, g3, _⟩ := c2 (by rw [hpr]; simp)
    obtain ⟨a, ha, hb⟩ := Option.map_eq_some_iff.mp he'
    cases hq : s.rt.ports (Fin.last p) with
    | none => rw [hq] at g2; exact absurd g2.symm g3
    | some q =>
      rw [hq] at g2
      obtain ⟨r, m1, m2, _, m3, m4, m5⟩ := port_hit h6 hv.2 hs hq ha
      have hprobe : r.req.probe = true := by rw [m3, hpr]; simp
      have hlate := ((quick_tick (run_quick h6) hs).2 r m1 hprobe).2
      split at hb
      · next hh =>
        injection hb with hb
        have := wordNow_hit hn hn2 hok hv.1 hv.2 hs m1 (by rw [m5]; exact hh) hlate
        rw [m2, m4, hb] at this
        exact ⟨q.addr, g2.symm, this⟩
      · cases hb
  · rw [if_neg hpr] at he'; cases he'

end

/-! ## Concrete runs -/

namespace TopRun

open Verif.MemTop (Ev State)

/-- A processor cycle: answers, what the load/store unit does, requests. -/
def cycle (es : List Ev) (resp : Option Nat := none) (ack : Bool := false) (ic wk : Option (BitVec 32) := none) : List Ev :=
  [.out resp ack false] ++ es ++ [.inp ic wk none none]
/-- Store number `k`: dispatch, data, address, translation, report. -/
def store (k : Nat) (pa v : BitVec 32) : List Ev := (LsuRun.store k .word false pa v ++ [Lsu.Ev.stWb k]).map .lsu
/-- A word load in slot `i`, up to the forwarding scan. -/
def load (i : Nat) (pa : BitVec 32) : List Ev := (LsuRun.load i false pa).map .lsu
/-- The interconnect takes a read and reads the memory; takes a write and writes it. -/
def read : List Ev := [.quiet .rdTake, .quiet (.rdRead 0)]
def write : List Ev := [.quiet .wrTake, .quiet .wrWrite]

def go (es : List Ev) : Option (State 1) := runFrom 4 16 (State.init 1 memA (flat memA)) es
def at_ (es : List Ev) : State 1 := (go es).getD (State.init 1 memA (flat memA))

theorem reach_at {es : List Ev} (h : (go es).isSome = true) : MemTop.Reach 1 16 memA (at_ es) := by
  unfold at_
  cases e : go es with
  | some s => exact reach_run e
  | none => rw [e] at h; cases h

/-- A store misses, its line is filled; a load of the word and one of its neighbour go to the cache in the cycle after the store has left the
queue; the instruction cache looks up the same line in the cycle of the loads, and takes the place of the second; the walker reads in the next
cycle. -/
def plain : List Ev :=
  cycle (store 0 0x1008#32 7#32 ++ [.lsu .commit, .stIssue 0]) ++ cycle [.lsu .retire] ++ read ++ cycle [] (some 0) ++ cycle [] ++
  cycle (load 0 0x1008#32 ++ load 1 0x100C#32 ++ [.ldIssue 0 5#32, .ldIssue 1 6#32]) (ic := some 0x1008#32)
def plain' : List Ev := plain ++ cycle [.ldIssue 1 7#32] (wk := some 0x1008#32)

/-- Twelve dirty lines of one set fill the set and the write buffer, whose first write is not taken. -/
def line (i : Nat) : BitVec 32 := BitVec.ofNat 32 (0x1000 + i * 0x4000)
def full : List Ev := (List.range 12).flatMap fun i =>
  cycle (store i (line i) (BitVec.ofNat 32 (0x100 + i)) ++ [.lsu .commit, .stIssue 0]) ++ cycle [.lsu .retire] ++ read ++ cycle [] (some 0) ++ cycle []
/-- A store to the next line, not committed yet; a younger load of another word of that line goes ahead and fetches it; the line waits to be
written.  The store commits, is carried out and leaves the queue.  Then a load of the stored word goes to the cache. -/
def stale : List Ev := full ++
  cycle (store 12 (line 12) 0xAABBCCDD#32 ++ load 0 (line 12 + 4) ++ [.ldIssue 0 1#32]) ++ cycle [] ++ read ++ cycle [] (some 0) ++ cycle [] ++
  cycle [.lsu .commit, .stIssue 0] ++ cycle [.lsu .retire] ++
  cycle (load 1 (line 12) ++ [.ldIssue 1 2#32]) ++ cycle []

end TopRun

open TopRun

/-- C113 (loads, answered, no abort): both loads of `plain'` are answered, one on the second attempt. -/
example : (go (plain' ++ [.out none false false])).isSome = true := by decide +kernel
example : let s := at_ (plain' ++ [.out none false false])
    (s.u.lsu.ldq 0).st = .readyToWb ∧ (s.u.lsu.ldq 0).result = 7#32 ∧ s.u.badFwd 0 = false ∧
    (s.u.lsu.ldq 1).st = .readyToWb ∧ (s.u.lsu.ldq 1).result = 0x1003#32 ∧ s.u.badFwd 1 = false := by decide +kernel
/-- C113 (instruction cache): the word of the store. -/
example : (go plain).isSome = true ∧ (handedOut (at_ plain) none false false).map (fun x => (x.1.icache, x.1.lsu 0, x.1.lsu 1)) =
    some (some (.hit 7#32), some { id := 5#32, data := 7#32, replay := .hit }, some { id := 6#32, data := 0#32, replay := .conflict }) := by decide +kernel
/-- C113 (walker): the same word, none of the answers from a line being filled. -/
example : (go plain').isSome = true ∧ (handedOut (at_ plain') none false false).map (fun x => (x.1.event, x.2.any (·.late))) =
    some (some { owner := .walk, data := 7#32, addr := 0x1008#32, id := 0x80000001#32 }, false) := by decide +kernel

/-- A store, then loads of four other lines of its set: the line goes back to memory, and nothing is held back. -/
def TopRun.back : List Ev :=
  cycle (store 0 (line 0) 7#32 ++ [.lsu .commit, .stIssue 0]) ++ cycle [.lsu .retire] ++ read ++ cycle [] (some 0) ++ cycle [] ++
  ([1, 2, 3, 4].flatMap fun i => cycle (load 0 (line i) ++ [.ldIssue 0 1#32]) ++ cycle [] ++ read ++ cycle [] (some 0) ++ cycle [.ldIssue 0 2#32] ++
    cycle [.lsu (.ldWb 0)]) ++ cycle [] ++ write ++ cycle [] (ack := true) ++ cycle []

set_option maxRecDepth 100000 in
theorem back_go : (go back).isSome = true := by decide +kernel
set_option maxRecDepth 100000 in
theorem back_facts : (at_ back).ph.isNone = true ∧ (at_ back).u.lsu.count = 0 ∧ (at_ back).u.prog.len = 1 ∧ (at_ back).d.d.wb.count = 0 ∧
    (∀ i < Dcache.mshrN, ((at_ back).d.d.m.ent i).valid = false) ∧ (at_ back).d.mem 0x1000#32 0 = 7#32 := by decide +kernel
set_option maxRecDepth 100000 in
theorem back_clean : ∀ i < 256, ∀ k < Dcache.ways, (at_ back).d.d.arr.dirty (BitVec.ofNat 8 i) k = false := by decide +kernel

/-- C113 (drained): the hypotheses are met. -/
example : flat (at_ back).d.mem = replay mmioAddr (flat memA) (fun k => ((at_ back).u.prog.slots k).outcome) (at_ back).u.prog.len := by
  have hr := reach_at back_go
  have h1 := back_facts
  have h2 := back_clean
  revert hr h1 h2
  generalize at_ back = s
  intro hr ⟨a1, a2, _, a4, a5, _⟩ h2
  refine C113_drained (by omega) (by omega) hr (Option.isNone_iff_eq_none.mp a1) a2 ?_
  rintro a (⟨k, hk, _, _, hd⟩ | ⟨c, hc, _⟩ | ⟨i, hi, hv, _⟩)
  · have := h2 (setOf a).toNat (setOf a).isLt k hk
    rw [BitVec.ofNat_toNat, BitVec.setWidth_eq] at this
    rw [this] at hd; cases hd
  · omega
  · rw [a5 i hi] at hv; cases hv

/-- With all older stores determined there is one value to return. -/
theorem not_returns {p n : Nat} {mem : BitVec 32 → Line} {s : State p} (hn : 0 < n) (hn2 : n ≤ 2 ^ 32) (h : MemTop.Reach p n mem s) (i : Nat)
    (ops : Nat → Option Spec.MemOrder.Op) (ho : (s.u.prog.loads i).older ≤ s.u.prog.committed)
    (he : ∀ k < (s.u.prog.loads i).older, (s.u.prog.slots k).outcome = ops k) {pa v : BitVec 32}
    (hne : Spec.ByteMem.load (replay mmioAddr (flat mem) ops (s.u.prog.loads i).older) (s.u.prog.loads i).size (s.u.prog.loads i).signed pa ≠ v) :
    ¬ Returns mmioAddr (flat mem) s.u.prog (s.u.prog.loads i) pa v := by
  intro hr
  refine hne (hr ops fun k hk => ?_)
  rw [← he k hk]
  exact allows_outcome (ok_reach hn hn2 h).inv (by omega)

/-- The stores of the run. -/
def staleOps (k : Nat) : Option Spec.MemOrder.Op :=
  some { addr := line k, size := .word, data := if k < 12 then BitVec.ofNat 32 (0x100 + k) else 0xAABBCCDD#32 }

set_option maxRecDepth 100000 in
theorem stale_go : (go stale).isSome = true := by decide +kernel
set_option maxRecDepth 100000 in
theorem stale_load : ((at_ stale).u.lsu.ldq 1).st = .readyToWb ∧ ((at_ stale).u.lsu.ldq 1).mmio = false ∧ (at_ stale).u.retired = 13 ∧
    (at_ stale).u.prog.loads 1 = { older := 13, size := .word, signed := true } ∧ ((at_ stale).u.lsu.ldq 1).paddr = 0x31000#32 ∧
    ((at_ stale).u.lsu.ldq 1).result = 0x31000#32 := by decide +kernel
set_option maxRecDepth 100000 in
theorem stale_prog : (at_ stale).u.prog.committed = 13 ∧ ∀ k < 13, ((at_ stale).u.prog.slots k).outcome = staleOps k := by decide +kernel

/-- **C113 (finding).**  A load is ready to report the old value of a word although the store to it precedes it in the program, has committed, was
carried out and left the queue before the load went to the cache. -/
theorem C113_stale : ∃ (s : State 1) (i : Nat), MemTop.Reach 1 16 memA s ∧ (s.u.lsu.ldq i).st = .readyToWb ∧ (s.u.lsu.ldq i).mmio = false ∧
    s.u.retired = 13 ∧ (s.u.prog.loads i).older = 13 ∧ (s.u.prog.slots 12).outcome = some { addr := 0x31000#32, size := .word, data := 0xAABBCCDD#32 } ∧
    (s.u.lsu.ldq i).paddr = 0x31000#32 ∧ (s.u.lsu.ldq i).result = 0x31000#32 ∧
    ¬ Returns mmioAddr (flat memA) s.u.prog (s.u.prog.loads i) (s.u.lsu.ldq i).paddr (s.u.lsu.ldq i).result := by
  have hr := reach_at stale_go
  have h1 := stale_load
  have h2 := stale_prog
  revert hr h1 h2
  generalize at_ stale = s
  intro hr ⟨a1, a2, a3, a4, a5, a6⟩ ⟨b1, b2⟩
  refine ⟨s, 1, hr, a1, a2, a3, by rw [a4], b2 12 (by omega), a5, a6,
    not_returns (by omega) (by omega) hr 1 staleOps (by rw [a4, b1]; exact Nat.le_refl 13) (by rw [a4]; exact b2) ?_⟩
  rw [a4, a5, a6]
  decide +kernel

end Verif.Props

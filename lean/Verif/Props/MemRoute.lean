import Verif.Model.MemRoute

/-
Properties C63-C65: the block that shares the data cache between the load/store unit, the instruction cache
and the page-table walker (Model/MemRoute.lean).
-/
namespace Verif.Props
open Verif.MemRoute
open Verif.Dcache (Replay)

namespace RouteLemmas
variable {n : Nat}

theorem isRoute_small {x : BitVec 32} (h : x.toNat < 2 ^ 31) : isRoute x = false := by
  unfold isRoute
  rw [decide_eq_false_iff_not, Decidable.not_not]
  apply BitVec.eq_of_getLsbD_eq
  intro i hi
  rw [BitVec.getLsbD_and]
  by_cases e : i = 31
  · subst e
    have : x.getLsbD 31 = false := by
      rw [BitVec.getLsbD, Nat.testBit_lt_two_pow h]
    rw [this]; rfl
  · have : (0x80000000#32).getLsbD i = false := by
      have : ∀ k : Fin 32, k.val ≠ 31 → (0x80000000#32).getLsbD k.val = false := by decide
      exact this ⟨i, hi⟩ e
    rw [this]; simp

theorem isRoute_next (x : BitVec 32) : isRoute (nextReqId x) = true := by
  unfold nextReqId
  split
  · assumption
  · decide

theorem cr_state (s : State) (ans : Fin (n + 1) → Option Resp) (f : Bool) :
    (combResponse s ans f).1 = { s with wait := (combResponse s ans f).1.wait } := by
  unfold combResponse
  cases ownAnswer s ans with
  | none => cases f <;> rfl
  | some r => cases r with | mk i d rp => cases rp <;> cases f <;> rfl

theorem cr_lsu (s : State) (ans : Fin (n + 1) → Option Resp) (f : Bool) (i : Fin (n + 1)) :
    (combResponse s ans f).2.lsu i =
      if (ownAnswer s ans).isSome ∧ i = Fin.last n then replayed s else filterLsu ans i := by
  unfold combResponse
  cases ownAnswer s ans with
  | none => cases f <;> simp
  | some r => cases r with | mk a d rp => cases rp <;> cases f <;> by_cases h : s.owner = .icache <;> simp [h]

theorem cr_icache (s : State) (ans : Fin (n + 1) → Option Resp) (f : Bool) :
    (combResponse s ans f).2.icache =
      match ownAnswer s ans with
      | none => none
      | some r => if s.owner = .icache then some (if r.replay = .hit then .hit r.data else .miss) else none := by
  unfold combResponse iMiss
  cases ownAnswer s ans with
  | none => cases f <;> rfl
  | some r => cases r with | mk a d rp => cases rp <;> cases f <;> by_cases h : s.owner = .icache <;> simp [h]

theorem cr_event (s : State) (ans : Fin (n + 1) → Option Resp) (f : Bool) :
    (combResponse s ans f).2.event =
      match ownAnswer s ans with
      | none => none
      | some r => if s.owner ≠ .icache ∧ r.replay = .hit then
          some { owner := s.owner, data := r.data, addr := s.addr, id := s.id } else none := by
  unfold combResponse
  cases ownAnswer s ans with
  | none => cases f <;> rfl
  | some r => cases r with | mk a d rp => cases rp <;> cases f <;> by_cases h : s.owner = .icache <;> simp [h]

/-- The walker is woken. -/
theorem cr_wake (s : State) (ans : Fin (n + 1) → Option Resp) (f : Bool) :
    (combResponse s ans f).2.wake.walk =
      ((match ownAnswer s ans with
        | some r => decide (s.owner = .walk) && (decide (r.replay = .conflict) || (f && decide (r.replay ≠ .hit)))
        | none => false) || (f && s.wait.walk)) := by
  unfold combResponse
  cases ownAnswer s ans with
  | none => cases f <;> simp
  | some r =>
    cases r with
    | mk a d rp => cases rp <;> cases f <;> cases e : s.owner <;> simp [wakeOf, Wake.or]

theorem cr_wait (s : State) (ans : Fin (n + 1) → Option Resp) (f : Bool) :
    (combResponse s ans f).1.wait.walk =
      (!f && (match ownAnswer s ans with
        | some r => if r.replay = .hit ∨ r.replay = .conflict then s.wait.walk else decide (s.owner = .walk)
        | none => s.wait.walk)) := by
  unfold combResponse
  cases ownAnswer s ans with
  | none => cases f <;> simp
  | some r =>
    cases r with
    | mk a d rp => cases rp <;> cases f <;> cases e : s.owner <;> simp [wakeOf]

/-- The requester behind an owner. -/
theorem arb_facts (s : State) (ic wk dt it : Option (BitVec 32)) :
    match (arbitrate s ic wk dt it).1 with
    | .none => True
    | .icache => ic = some (arbitrate s ic wk dt it).2 ∧ s.owner ≠ .icache
    | .walk => wk = some (arbitrate s ic wk dt it).2 ∧ s.owner ≠ .walk
    | .dtlb => dt = some (arbitrate s ic wk dt it).2
    | .itlb => it = some (arbitrate s ic wk dt it).2 := by
  unfold arbitrate
  cases hs : s.owner <;> cases ic <;> cases wk <;> cases dt <;> cases it <;> simp

/-- What ties the block to the requests the cache holds. -/
structure Inv (s : Sys n) : Prop where
  next : isRoute s.route.nextId = true
  ids : ∀ i q, s.last.lsu i = some q → isRoute q.id = false
  other : ∀ i, i ≠ Fin.last n → s.ports i = s.last.lsu i
  idle : s.route.owner = .none → s.ports (Fin.last n) = s.last.lsu (Fin.last n) ∧ s.probe = .none
  own : s.route.owner ≠ .none →
    s.ports (Fin.last n) = some { addr := s.route.addr, id := s.route.id } ∧ isRoute s.route.id = true ∧
    s.route.replayValid = (s.last.lsu (Fin.last n)).isSome ∧
    (∀ q, s.last.lsu (Fin.last n) = some q → s.route.replayId = q.id)
  probe : (s.probe = if s.route.owner = .icache then some (Fin.last n) else .none)
  who : match s.route.owner with
    | .none => True
    | .icache => s.last.icache = some s.route.addr
    | .walk => s.last.walk = some s.route.addr
    | .dtlb => s.last.dtlb = some s.route.addr
    | .itlb => s.last.itlb = some s.route.addr

/-- `comb_request` establishes the connection. -/
theorem req_inv (r : State) (c : ReqIn n) (op : Owner → Bool) (hn : isRoute r.nextId = true)
    (hid : ∀ i q, c.lsu i = some q → q.id.toNat < 2 ^ 31) :
    Inv { route := (combRequest r c).1, ports := (combRequest r c).2.ports, probe := (combRequest r c).2.probe
          last := c, open_ := op } := by
  have hf := arb_facts r c.icache c.walk c.dtlb c.itlb
  unfold combRequest
  generalize arbitrate r c.icache c.walk c.dtlb c.itlb = oa at hf ⊢
  obtain ⟨o, a⟩ := oa
  dsimp only at hf ⊢
  by_cases ho : o = .none
  · subst ho
    rw [if_pos rfl]
    exact
      { next := hn
        ids := fun i q e => isRoute_small (hid i q e)
        other := fun _ _ => rfl
        idle := fun _ => ⟨rfl, rfl⟩
        own := fun h => absurd rfl h
        probe := rfl
        who := trivial }
  · rw [if_neg ho]
    exact
      { next := isRoute_next _
        ids := fun i q e => isRoute_small (hid i q e)
        other := fun i hi => by dsimp only; rw [if_neg hi]
        idle := fun h => absurd h ho
        own := fun _ => by
          dsimp only
          rw [if_pos rfl]
          refine ⟨rfl, hn, rfl, ?_⟩
          intro q hq
          rw [hq]
        probe := rfl
        who := by
          dsimp only
          cases o <;> first | trivial | exact hf | exact hf.1 }

theorem reach_inv {s : Sys n} (h : Reach s) : Inv s := by
  induction h with
  | init =>
    exact
      { next := (by decide : isRoute 0x80000000#32 = true)
        ids := fun i q e => by cases e
        other := fun _ _ => rfl
        idle := fun _ => ⟨rfl, rfl⟩
        own := fun h => absurd rfl h
        probe := rfl
        who := trivial }
  | @step s c h hv ih =>
    unfold Sys.step
    dsimp only
    apply req_inv _ _ _ _ hv.ids
    rw [cr_state]
    exact ih.next

theorem reachW {s : Sys n} (h : ReachW s) : Reach s := by
  induction h with
  | init => exact .init
  | step _ hv _ _ ih => exact .step ih hv

/-- In a reachable state the block takes the last port's answer exactly if it issued a read. -/
theorem own_answer {s : Sys n} (hI : Inv s) {c : Cyc n} (hv : s.Valid c) :
    ownAnswer s.route c.ans = if s.route.owner = .none then .none else c.ans (Fin.last n) := by
  unfold ownAnswer
  have ha := hv.ans (Fin.last n)
  by_cases ho : s.route.owner = .none
  · rw [if_pos ho]
    cases c.ans (Fin.last n) with
    | none => rfl
    | some r => dsimp only; rw [if_neg (fun h => h.1 ho)]
  · rw [if_neg ho]
    cases hc : c.ans (Fin.last n) with
    | none => rfl
    | some r =>
      rw [hc, (hI.own ho).1] at ha
      injection ha with ha
      dsimp only at ha ⊢
      rw [if_pos ⟨ho, ha⟩]

theorem own_some {s : Sys n} (hI : Inv s) {c : Cyc n} (hv : s.Valid c) (ho : s.route.owner ≠ .none) :
    ∃ r, c.ans (Fin.last n) = some r ∧ ownAnswer s.route c.ans = some r := by
  have ha := hv.ans (Fin.last n)
  rw [own_answer hI hv, if_neg ho]
  rw [(hI.own ho).1] at ha
  cases hc : c.ans (Fin.last n) with
  | none => rw [hc] at ha; cases ha
  | some r => exact ⟨r, rfl, rfl⟩

end RouteLemmas

open RouteLemmas

/-! ## C63: the load/store unit does not notice -/

/-- **C63.** A cycle after the load/store unit presented loads to the memory system, it gets exactly one answer
per load, on the same port and under the load's identifier, and nothing else: the cache's own answer to that very
request, or - on the last port only - the demand to try again. -/
theorem C63_lsu {n : Nat} {s : Sys n} (h : Reach s) {c : Cyc n} (hv : s.Valid c) (i : Fin (n + 1)) :
    (s.last.lsu i = none → (s.step c).2.1.lsu i = none) ∧
    (∀ q, s.last.lsu i = some q → ∃ r, (s.step c).2.1.lsu i = some r ∧ r.id = q.id ∧
      ((s.ports i = some q ∧ c.ans i = some r) ∨ (i = Fin.last n ∧ r.replay = .conflict))) := by
  have hI := reach_inv h
  have hl : (s.step c).2.1.lsu i = (combResponse s.route c.ans c.fill).2.lsu i := rfl
  rw [hl, cr_lsu]
  by_cases hown : (ownAnswer s.route c.ans).isSome ∧ i = Fin.last n
  · rw [if_pos hown]
    obtain ⟨h1, h2⟩ := hown
    have ho : s.route.owner ≠ .none := by
      intro e
      rw [own_answer hI hv, if_pos e] at h1
      cases h1
    obtain ⟨_, _, hrv, hri⟩ := hI.own ho
    subst h2
    unfold replayed
    constructor
    · intro e; rw [hrv, e]; rfl
    · intro q e
      rw [hrv, e]
      refine ⟨_, rfl, hri q e, .inr ⟨rfl, rfl⟩⟩
  · rw [if_neg hown]
    have hp : s.ports i = s.last.lsu i := by
      by_cases hi : i = Fin.last n
      · subst hi
        by_cases ho : s.route.owner = .none
        · exact (hI.idle ho).1
        · obtain ⟨r, _, hr⟩ := own_some hI hv ho
          exact absurd ⟨by rw [hr]; rfl, rfl⟩ hown
      · exact hI.other i hi
    have ha := hv.ans i
    unfold filterLsu
    constructor
    · intro e
      rw [hp, e] at ha
      cases hc : c.ans i with
      | none => rfl
      | some r => rw [hc] at ha; cases ha
    · intro q e
      rw [hp, e] at ha
      cases hc : c.ans i with
      | none => rw [hc] at ha; cases ha
      | some r =>
        rw [hc] at ha
        injection ha with ha
        dsimp only at ha ⊢
        have : isRoute r.id = false := by rw [ha]; exact hI.ids i q e
        rw [this]
        exact ⟨r, rfl, ha, .inl ⟨by rw [hp, e], rfl⟩⟩

/-- **C63.** A load loses its port only if it is on the last one and another requester - the instruction cache or the
page-table walker - asked for memory in that cycle and got the port, for the address it asked for. -/
theorem C63_displaced {n : Nat} {s : Sys n} (h : Reach s) (i : Fin (n + 1)) :
    s.ports i = s.last.lsu i ∨
    (i = Fin.last n ∧ ∃ q, s.ports i = some q ∧
      (s.last.icache = some q.addr ∨ s.last.walk = some q.addr ∨ s.last.dtlb = some q.addr ∨ s.last.itlb = some q.addr)) := by
  have hI := reach_inv h
  by_cases hi : i = Fin.last n
  · subst hi
    have hw := hI.who
    cases ho : s.route.owner with
    | none => exact .inl (hI.idle ho).1
    | _ =>
      rw [ho] at hw
      have hne : s.route.owner ≠ .none := by rw [ho]; decide
      refine .inr ⟨rfl, _, (hI.own hne).1, ?_⟩
      dsimp only at hw ⊢
      first
        | exact .inl hw
        | exact .inr (.inl hw)
        | exact .inr (.inr (.inl hw))
        | exact .inr (.inr (.inr hw))
  · exact .inl (hI.other i hi)

/-! ## C64: the other requesters get their own answers, in bounded time -/

/-- **C64.** The instruction cache is answered exactly in the cycle after its look-up went to the data cache, for the
address it asked for; it gets the data cache's word on a hit and a miss otherwise. -/
theorem C64_icache {n : Nat} {s : Sys n} (h : Reach s) {c : Cyc n} (hv : s.Valid c) :
    (s.step c).2.1.icache =
      (if s.probe = some (Fin.last n) then
        (c.ans (Fin.last n)).map (fun r => if r.replay = .hit then IResp.hit r.data else .miss) else none) ∧
    (s.probe ≠ none → s.probe = some (Fin.last n) ∧
      (s.ports (Fin.last n)).map (·.addr) = s.last.icache ∧ s.last.icache ≠ none ∧ c.ans (Fin.last n) ≠ none) := by
  have hI := reach_inv h
  have hc : (s.step c).2.1.icache = (combResponse s.route c.ans c.fill).2.icache := rfl
  rw [hc, cr_icache, hI.probe]
  have hw := hI.who
  by_cases ho : s.route.owner = .icache
  · have hne : s.route.owner ≠ .none := by rw [ho]; decide
    obtain ⟨r, h1, h2⟩ := own_some hI hv hne
    rw [h2, if_pos ho, if_pos rfl, h1]
    dsimp only
    rw [if_pos ho]
    refine ⟨rfl, fun _ => ⟨rfl, ?_, ?_, by simp⟩⟩
    · rw [(hI.own hne).1]
      rw [ho] at hw
      exact hw.symm
    · rw [ho] at hw
      dsimp only at hw
      rw [hw]; simp
  · rw [if_neg ho]
    refine ⟨?_, fun h => absurd rfl h⟩
    rw [if_neg (by simp)]
    cases ownAnswer s.route c.ans with
    | none => rfl
    | some r => dsimp only; rw [if_neg ho]

/-- The address a requester of the walker asks for. -/
def asked {n : Nat} (e : ReqIn n) : Owner → Option (BitVec 32)
  | .walk => e.walk
  | .dtlb => e.dtlb
  | .itlb => e.itlb
  | _ => none

/-- **C64.** Data handed to the page-table walker is the word with which the data cache answered the walker's own
read: the read of the last cycle, at the address asked for, granted under the identifier that comes with the data. -/
theorem C64_walker {n : Nat} {s : Sys n} (h : Reach s) {c : Cyc n} (hv : s.Valid c) {c' : Cyc n} (hv' : (s.step c).1.Valid c')
    {ev : Event} (he : ((s.step c).1.step c').2.1.event = some ev) :
    (s.step c).2.2.grant = some (ev.owner, ev.id) ∧ asked c.req ev.owner = some ev.addr ∧
    (s.step c).2.2.ports (Fin.last n) = some { addr := ev.addr, id := ev.id } ∧
    c'.ans (Fin.last n) = some { id := ev.id, data := ev.data, replay := .hit } := by
  have hI := reach_inv (Reach.step h hv)
  have hc : ((s.step c).1.step c').2.1.event = (combResponse (s.step c).1.route c'.ans c'.fill).2.event := rfl
  rw [hc, cr_event] at he
  by_cases ho : (s.step c).1.route.owner = .none
  · rw [own_answer hI hv', if_pos ho] at he
    cases he
  · obtain ⟨r, h1, h2⟩ := own_some hI hv' ho
    rw [h2] at he
    dsimp only at he
    split at he
    · rename_i hh
      injection he with he
      subst he
      have hp := (hI.own ho).1
      have ha := hv'.ans (Fin.last n)
      rw [h1, hp] at ha
      injection ha with ha
      dsimp only at ha
      refine ⟨?_, ?_, hp, ?_⟩
      · have hg : (s.step c).2.2.grant = (combRequest (combResponse s.route c.ans c.fill).1 c.req).2.grant := rfl
        have hr : (s.step c).1.route = (combRequest (combResponse s.route c.ans c.fill).1 c.req).1 := rfl
        rw [hg]
        rw [hr] at hh ho ⊢
        unfold combRequest at hh ho ⊢
        dsimp only at hh ho ⊢
        by_cases e : (arbitrate (combResponse s.route c.ans c.fill).1 c.req.icache c.req.walk c.req.dtlb c.req.itlb).1 = .none
        · rw [if_pos e] at ho
          exact absurd e ho
        · rw [if_neg e] at hh ⊢
          dsimp only at hh ⊢
          rw [if_neg hh.1]
      · have hw := hI.who
        have hlast : (s.step c).1.last = c.req := rfl
        rw [hlast] at hw
        dsimp only
        cases e : (s.step c).1.route.owner with
        | none => exact absurd e ho
        | icache => exact absurd e hh.1
        | walk => rw [e] at hw; exact hw
        | dtlb => rw [e] at hw; exact hw
        | itlb => rw [e] at hw; exact hw
      · rw [h1]
        obtain ⟨ri, rd, rr⟩ := r
        dsimp only at ha hh ⊢
        rw [ha, hh.2]
    · cases he

/-- **C64.** The instruction cache never waits: of two cycles in a row in which it asks, one is served. -/
theorem C64_icache_fair {n : Nat} (s : Sys n) (c c' : Cyc n) (h : c.req.icache ≠ none) (h' : c'.req.icache ≠ none) :
    (s.step c).2.2.probe ≠ none ∨ ((s.step c).1.step c').2.2.probe ≠ none := by
  obtain ⟨a, ha⟩ := Option.ne_none_iff_exists'.mp h
  obtain ⟨a', ha'⟩ := Option.ne_none_iff_exists'.mp h'
  by_cases ho : (combResponse s.route c.ans c.fill).1.owner = .icache
  · right
    have h1 : (s.step c).1.route.owner ≠ .icache := by
      show (combRequest (combResponse s.route c.ans c.fill).1 c.req).1.owner ≠ _
      have hf := arb_facts (combResponse s.route c.ans c.fill).1 c.req.icache c.req.walk c.req.dtlb c.req.itlb
      unfold combRequest
      generalize arbitrate (combResponse s.route c.ans c.fill).1 c.req.icache c.req.walk c.req.dtlb c.req.itlb = oa at hf ⊢
      obtain ⟨o, b⟩ := oa
      cases o <;> simp_all
    have h2 : (combResponse (s.step c).1.route c'.ans c'.fill).1.owner ≠ .icache := by
      rw [cr_state]; exact h1
    show (combRequest (combResponse (s.step c).1.route c'.ans c'.fill).1 c'.req).2.probe ≠ none
    unfold combRequest arbitrate
    rw [if_neg h2, ha']
    simp
  · left
    show (combRequest (combResponse s.route c.ans c.fill).1 c.req).2.probe ≠ none
    unfold combRequest arbitrate
    rw [if_neg ho, ha]
    simp

/-- The walker's read is granted in this cycle. -/
def walkGranted {n : Nat} (o : ReqOut n) : Bool :=
  match o.grant with
  | some (.walk, _) => true
  | _ => false

/-- **C64.** The page-table walker waits at most two cycles for the cache, whatever the instruction cache and the
load/store unit do: of three cycles in a row in which it asks, one is served. -/
theorem C64_walk_fair {n : Nat} (s : Sys n) (c1 c2 c3 : Cyc n)
    (h1 : c1.req.walk ≠ none) (h2 : c2.req.walk ≠ none) (h3 : c3.req.walk ≠ none) :
    walkGranted (s.step c1).2.2 = true ∨ walkGranted ((s.step c1).1.step c2).2.2 = true ∨
    walkGranted (((s.step c1).1.step c2).1.step c3).2.2 = true := by
  have one : ∀ (t : Sys n) (c : Cyc n), c.req.walk ≠ none →
      walkGranted (t.step c).2.2 = true ∨
      (t.route.owner = .walk ∧ (t.step c).1.route.owner ≠ .walk) ∨
      (t.route.owner ≠ .walk ∧ t.route.owner ≠ .icache ∧ (t.step c).1.route.owner = .icache) := by
    intro t c h
    obtain ⟨a, ha⟩ := Option.ne_none_iff_exists'.mp h
    have ho : (combResponse t.route c.ans c.fill).1.owner = t.route.owner := by rw [cr_state]
    show walkGranted (combRequest (combResponse t.route c.ans c.fill).1 c.req).2 = true ∨
      (_ ∧ (combRequest (combResponse t.route c.ans c.fill).1 c.req).1.owner ≠ _) ∨
      (_ ∧ _ ∧ (combRequest (combResponse t.route c.ans c.fill).1 c.req).1.owner = _)
    generalize combResponse t.route c.ans c.fill = r at ho ⊢
    unfold combRequest arbitrate
    rw [ho, ha]
    cases e : t.route.owner <;> cases c.req.icache <;> cases c.req.dtlb <;> cases c.req.itlb <;> simp [walkGranted]
  rcases one s c1 h1 with g1 | g1 | g1
  · exact .inl g1
  · rcases one (s.step c1).1 c2 h2 with g2 | g2 | g2
    · exact .inr (.inl g2)
    · exact absurd g2.1 g1.2
    · rcases one ((s.step c1).1.step c2).1 c3 h3 with g3 | g3 | g3
      · exact .inr (.inr g3)
      · rw [g2.2.2] at g3; exact absurd g3.1 (by decide)
      · exact absurd g2.2.2 g3.2.1
  · rcases one (s.step c1).1 c2 h2 with g2 | g2 | g2
    · exact .inr (.inl g2)
    · rw [g1.2.2] at g2; exact absurd g2.1 (by decide)
    · exact absurd g1.2.2 g2.2.1

/-! ## C65: no wake-up is lost -/

/-- The walker's open read is still on its way to the cache, or the block remembers to wake the walker. -/
def Covered {n : Nat} (s : Sys n) : Prop :=
  s.open_ .walk = true → s.route.owner = .walk ∨ s.route.wait.walk = true

theorem covered_reach {n : Nat} {s : Sys n} (h : ReachW s) :
    Covered s ∧ (s.route.owner = .none ∨ s.route.owner = .icache ∨ s.route.owner = .walk) := by
  induction h with
  | init => exact ⟨(fun h => by cases h), .inl rfl⟩
  | @step s c h hv hd hi ih =>
    have hI := reach_inv (reachW h)
    obtain ⟨ih, iho⟩ := ih
    have hw : (combRequest (combResponse s.route c.ans c.fill).1 c.req).1.wait = (combResponse s.route c.ans c.fill).1.wait := by
      unfold combRequest; dsimp only; split <;> rfl
    have hg : walkGranted (combRequest (combResponse s.route c.ans c.fill).1 c.req).2 = true →
        (combRequest (combResponse s.route c.ans c.fill).1 c.req).1.owner = .walk := by
      unfold combRequest walkGranted
      generalize arbitrate (combResponse s.route c.ans c.fill).1 c.req.icache c.req.walk c.req.dtlb c.req.itlb = oa
      obtain ⟨o, b⟩ := oa
      cases o <;> simp
    constructor
    · intro hop
      show (combRequest (combResponse s.route c.ans c.fill).1 c.req).1.owner = .walk ∨
        (combRequest (combResponse s.route c.ans c.fill).1 c.req).1.wait.walk = true
      rw [hw]
      have hop' : openAfter s.open_ (combResponse s.route c.ans c.fill).2 (combRequest (combResponse s.route c.ans c.fill).1 c.req).2 .walk = true := hop
      unfold openAfter at hop'
      rw [Bool.or_eq_true] at hop'
      rcases hop' with hop' | hop'
      · right
        rw [Bool.and_eq_true, Bool.not_eq_true'] at hop'
        obtain ⟨h1, h2⟩ := hop'
        unfold answered at h2
        rw [Bool.or_eq_false_iff] at h2
        obtain ⟨h2, h3⟩ := h2
        dsimp only at h3
        rw [cr_event] at h2
        rw [cr_wake] at h3
        rw [cr_wait]
        have hcov := ih h1
        by_cases ho : s.route.owner = .none
        · rw [own_answer hI hv, if_pos ho] at h3 ⊢
          rw [ho] at hcov
          have hcov : s.route.wait.walk = true := by rcases hcov with e | e; cases e; exact e
          dsimp only at h3 ⊢
          rw [hcov] at h3 ⊢
          cases hf : c.fill
          · rfl
          · rw [hf] at h3; cases h3
        · obtain ⟨r, e1, e2⟩ := own_some hI hv ho
          rw [e2] at h2 h3 ⊢
          dsimp only at h2 h3 ⊢
          rcases iho with iho | iho | iho
          · exact absurd iho ho
          · have hpr := hv.probe (Fin.last n) (by rw [hI.probe, if_pos iho]) r e1
            rw [if_pos hpr]
            rw [iho] at hcov
            have hcov : s.route.wait.walk = true := by rcases hcov with e | e; cases e; exact e
            rw [hcov] at h3 ⊢
            cases hf : c.fill
            · rfl
            · rw [hf] at h3; rw [iho] at h3; cases h3
          · rw [iho] at h2 h3 ⊢
            obtain ⟨ri, rd, rr⟩ := r
            dsimp only at h2 h3 ⊢
            cases hf : c.fill <;> cases rr <;> simp_all
      · left
        apply hg
        unfold walkGranted
        cases hgr : (combRequest (combResponse s.route c.ans c.fill).1 c.req).2.grant with
        | none => rw [hgr] at hop'; cases hop'
        | some p =>
          rw [hgr] at hop'
          obtain ⟨w, id⟩ := p
          dsimp only at hop'
          rw [decide_eq_true_iff] at hop'
          subst hop'
          rfl
    · show (combRequest (combResponse s.route c.ans c.fill).1 c.req).1.owner = .none ∨
        (combRequest (combResponse s.route c.ans c.fill).1 c.req).1.owner = .icache ∨
        (combRequest (combResponse s.route c.ans c.fill).1 c.req).1.owner = .walk
      unfold combRequest arbitrate
      rw [hd, hi]
      cases (combResponse s.route c.ans c.fill).1.owner <;> cases c.req.icache <;> cases c.req.walk <;> simp

/-- **C65.** While the two TLBs share the walker, no wake-up is lost: whenever the data cache completes a line fill, a
read of the walker that is still open is answered with data in that cycle, or the walker is told to repeat it. -/
theorem C65_wakeup {n : Nat} {s : Sys n} (h : ReachW s) {c : Cyc n} (hv : s.Valid c) (hf : c.fill = true) (ho : s.open_ .walk = true) :
    (s.step c).2.1.wake.walk = true ∨
    ∃ ev, (s.step c).2.1.event = some ev ∧ ev.owner = .walk := by
  have hI := reach_inv (reachW h)
  obtain ⟨hcov, hown⟩ := covered_reach h
  have hcov := hcov ho
  have h1 : (s.step c).2.1.wake = (combResponse s.route c.ans c.fill).2.wake := rfl
  have h2 : (s.step c).2.1.event = (combResponse s.route c.ans c.fill).2.event := rfl
  rw [h1, h2, cr_wake, cr_event, hf]
  by_cases hw : s.route.wait.walk = true
  · left; rw [hw]; simp
  · have how : s.route.owner = .walk := by rcases hcov with e | e; exact e; exact absurd e hw
    obtain ⟨r, e1, e2⟩ := own_some hI hv (by rw [how]; decide)
    rw [e2, how]
    obtain ⟨ri, rd, rr⟩ := r
    cases rr <;> simp

/-- **C65.** An open read needs no other wake-up than a line fill: if the cache refused it for any other reason than a
missing line, the walker is told at once. -/
theorem C65_conflict {n : Nat} {s : Sys n} (h : ReachW s) {c : Cyc n} (hv : s.Valid c) (ho : s.open_ .walk = true)
    (hstill : (s.step c).1.open_ .walk = true) (hng : walkGranted (s.step c).2.2 = false) :
    s.route.owner = .walk → ∃ r, c.ans (Fin.last n) = some r ∧ (r.replay = .mshrHit ∨ r.replay = .mshrFull) ∧ c.fill = false := by
  intro how
  have hI := reach_inv (reachW h)
  obtain ⟨r, e1, e2⟩ := own_some hI hv (by rw [how]; decide)
  refine ⟨r, e1, ?_⟩
  have hop' : openAfter s.open_ (combResponse s.route c.ans c.fill).2 (combRequest (combResponse s.route c.ans c.fill).1 c.req).2 .walk = true := hstill
  have hng' : walkGranted (combRequest (combResponse s.route c.ans c.fill).1 c.req).2 = false := hng
  unfold openAfter at hop'
  rw [Bool.or_eq_true] at hop'
  rcases hop' with hop' | hop'
  · rw [Bool.and_eq_true, Bool.not_eq_true'] at hop'
    obtain ⟨_, h2⟩ := hop'
    unfold answered at h2
    rw [Bool.or_eq_false_iff] at h2
    obtain ⟨h2, h3⟩ := h2
    dsimp only at h3
    rw [cr_event, e2, how] at h2
    rw [cr_wake, e2, how] at h3
    obtain ⟨ri, rd, rr⟩ := r
    cases rr <;> cases hf : c.fill <;> simp_all
  · exfalso
    unfold walkGranted at hng'
    cases hgr : (combRequest (combResponse s.route c.ans c.fill).1 c.req).2.grant with
    | none => rw [hgr] at hop'; cases hop'
    | some p =>
      rw [hgr] at hop' hng'
      obtain ⟨w, id⟩ := p
      dsimp only at hop'
      rw [decide_eq_true_iff] at hop'
      subst hop'
      cases hng'

/-! ## Concrete runs -/

namespace RouteRun

/-- `Sys.Valid`, decided. -/
def ok {n : Nat} (s : Sys n) (c : Cyc n) : Bool :=
  decide (∀ i, (c.ans i).map (·.id) = (s.ports i).map (·.id)) &&
  decide (∀ i, s.probe = some i → (c.ans i).all (fun r => decide (r.replay = .hit ∨ r.replay = .conflict)) = true) &&
  decide (∀ i, (c.req.lsu i).all (fun q => decide (q.id.toNat < 2 ^ 31)) = true)

theorem ok_valid {n : Nat} {s : Sys n} {c : Cyc n} (h : ok s c = true) : s.Valid c := by
  unfold ok at h
  rw [Bool.and_eq_true, Bool.and_eq_true, decide_eq_true_iff, decide_eq_true_iff, decide_eq_true_iff] at h
  obtain ⟨⟨h1, h2⟩, h3⟩ := h
  refine ⟨h1, ?_, ?_⟩
  · intro i hi r hr
    have := h2 i hi
    rw [hr] at this
    exact of_decide_eq_true this
  · intro i q hq
    have := h3 i
    rw [hq] at this
    exact of_decide_eq_true this

abbrev noReq : Fin 2 → Option Req := fun _ => none
abbrev noAns : Fin 2 → Option Resp := fun _ => none
def two (a b : Option Resp) : Fin 2 → Option Resp := fun i => if i = 0 then a else b
def lds : Fin 2 → Option Req := fun i => if i = 0 then some ⟨0x80001000#32, 7#32⟩ else some ⟨0x80002000#32, 9#32⟩

/-- Both load ports busy while the walker asks for 0x80400004 and the instruction cache for 0x80000040. -/
def c1 : Cyc 1 := { ans := noAns, fill := false, req := { lsu := lds, icache := some 0x80000040#32, walk := some 0x80400004#32 } }
/-- The look-up hits; the first load hits; the walker asks again, and the load/store unit again uses both ports. -/
def c2 : Cyc 1 :=
  { ans := two (some ⟨7#32, 0xAA#32, .hit⟩) (some ⟨0x80000000#32, 0x13#32, .hit⟩), fill := false
    req := { lsu := lds, walk := some 0x80400004#32 } }
/-- The walker's read misses. -/
def c3 : Cyc 1 :=
  { ans := two (some ⟨7#32, 0xAA#32, .hit⟩) (some ⟨0x80000001#32, 0#32, .mshrHit⟩), fill := false, req := { lsu := noReq } }
/-- A line arrives. -/
def c4 : Cyc 1 := { ans := noAns, fill := true, req := { lsu := noReq, walk := some 0x80400004#32 } }
/-- The repeated read hits. -/
def c5 : Cyc 1 := { ans := two none (some ⟨0x80000002#32, 0x20100C01#32, .hit⟩), fill := false, req := { lsu := noReq } }

/-- What the second cycle hands out: the first load its data, the displaced second load a retry, the instruction
cache its word; and the walker gets the port. -/
example : ∃ s : Sys 1, Reach s ∧ s.Valid c2 ∧ (s.step c2).2.1.lsu 0 = some ⟨7#32, 0xAA#32, .hit⟩ ∧
    (s.step c2).2.1.lsu 1 = some ⟨9#32, 0#32, .conflict⟩ ∧ (s.step c2).2.1.icache = some (.hit 0x13#32) ∧
    walkGranted (s.step c2).2.2 = true := by
  have hk : ok ({} : Sys 1) c1 = true := by decide +kernel
  refine ⟨((({} : Sys 1)).step c1).1, .step .init (ok_valid hk), ok_valid ?_, ?_⟩
  · decide +kernel
  · decide +kernel

/-- The walker waits for the line, is woken, repeats the read and gets the word. -/
example : ∃ s : Sys 1, ReachW s ∧ s.Valid c4 ∧ s.open_ .walk = true ∧ (s.step c4).2.1.wake.walk = true ∧
    ((s.step c4).1.step c5).2.1.event = some ⟨.walk, 0x20100C01#32, 0x80400004#32, 0x80000002#32⟩ := by
  have hk1 : ok ({} : Sys 1) c1 = true := by decide +kernel
  have hk2 : ok ((({} : Sys 1)).step c1).1 c2 = true := by decide +kernel
  have hk3 : ok (((({} : Sys 1)).step c1).1.step c2).1 c3 = true := by decide +kernel
  refine ⟨((((({} : Sys 1)).step c1).1.step c2).1.step c3).1, ?_, ok_valid ?_, ?_⟩
  · exact .step (.step (.step .init (ok_valid hk1) rfl rfl) (ok_valid hk2) rfl rfl) (ok_valid hk3) rfl rfl
  · decide +kernel
  · decide +kernel

/-- The data TLB's own port asks for a word, is granted and misses; then the walker is granted and misses as well. -/
def d1 : Cyc 1 := { ans := noAns, fill := false, req := { lsu := noReq, dtlb := some 0x80400008#32 } }
def d2 : Cyc 1 :=
  { ans := two none (some ⟨0x80000000#32, 0#32, .mshrHit⟩), fill := false, req := { lsu := noReq, walk := some 0x80400004#32 } }
def d3 : Cyc 1 := { ans := two none (some ⟨0x80000001#32, 0#32, .mshrHit⟩), fill := false, req := { lsu := noReq } }

/-- Cycles in which the data TLB does not ask again: it is waiting for its answer. -/
inductive Later {n : Nat} (s : Sys n) : Sys n → Prop
  | refl : Later s s
  | step {t : Sys n} {c : Cyc n} (h : Later s t) (hv : t.Valid c) (hd : c.req.dtlb = none) : Later s (t.step c).1

theorem forgotten {n : Nat} {s : Sys n} {c : Cyc n} (h1 : s.route.owner ≠ .dtlb) (h2 : s.route.wait.dtlb = false) :
    (s.step c).2.1.wake.dtlb = false ∧ (∀ ev, (s.step c).2.1.event = some ev → ev.owner ≠ .dtlb) ∧
    (c.req.dtlb = none → (s.step c).1.route.owner ≠ .dtlb ∧ (s.step c).1.route.wait.dtlb = false) := by
  have hr : (combResponse s.route c.ans c.fill).1.wait.dtlb = false ∧ (combResponse s.route c.ans c.fill).2.wake.dtlb = false := by
    unfold combResponse
    cases ownAnswer s.route c.ans with
    | none => cases c.fill <;> simp [h2]
    | some r =>
      obtain ⟨i, d, rp⟩ := r
      cases rp <;> cases c.fill <;> cases e : s.route.owner <;> first | exact absurd e h1 | simp [wakeOf, Wake.or, h2]
  refine ⟨hr.2, ?_, ?_⟩
  · intro ev he
    have he : (combResponse s.route c.ans c.fill).2.event = some ev := he
    rw [cr_event] at he
    cases ho : ownAnswer s.route c.ans with
    | none => rw [ho] at he; cases he
    | some r =>
      rw [ho] at he
      dsimp only at he
      split at he
      · injection he with he; subst he; exact h1
      · cases he
  · intro hd
    have hw : (combRequest (combResponse s.route c.ans c.fill).1 c.req).1.wait = (combResponse s.route c.ans c.fill).1.wait := by
      unfold combRequest; dsimp only; split <;> rfl
    refine ⟨?_, by show (combRequest (combResponse s.route c.ans c.fill).1 c.req).1.wait.dtlb = false; rw [hw]; exact hr.1⟩
    show (combRequest (combResponse s.route c.ans c.fill).1 c.req).1.owner ≠ .dtlb
    unfold combRequest arbitrate
    rw [hd]
    cases (combResponse s.route c.ans c.fill).1.owner <;> cases c.req.icache <;> cases c.req.walk <;> cases c.req.itlb <;> simp

/-- **C65 (finding).** With more than one requester behind the block the wake-up of one is lost: the walker's wait
overwrites the data TLB's, and however many lines arrive later, the data TLB's read is never answered and the data
TLB never told to repeat it.  (`ptw_wait` is assigned, not or-ed, MemRouteBlock.cpp:77-79.)  The two TLBs of the
simulator do not use these ports. -/
theorem C65_lost_wakeup : ∃ s : Sys 1, Reach s ∧ s.open_ .dtlb = true ∧
    ∀ t, Later s t → ∀ c : Cyc 1, t.Valid c →
      (t.step c).2.1.wake.dtlb = false ∧ ∀ ev, (t.step c).2.1.event = some ev → ev.owner ≠ .dtlb := by
  have hk1 : ok ({} : Sys 1) d1 = true := by decide +kernel
  have hk2 : ok ((({} : Sys 1)).step d1).1 d2 = true := by decide +kernel
  have hk3 : ok (((({} : Sys 1)).step d1).1.step d2).1 d3 = true := by decide +kernel
  have hr : Reach ((((({} : Sys 1)).step d1).1.step d2).1.step d3).1 :=
    .step (.step (.step .init (ok_valid hk1)) (ok_valid hk2)) (ok_valid hk3)
  refine ⟨_, hr, by decide +kernel, ?_⟩
  have ho : ((((({} : Sys 1)).step d1).1.step d2).1.step d3).1.route.owner ≠ .dtlb := by decide +kernel
  have hw : ((((({} : Sys 1)).step d1).1.step d2).1.step d3).1.route.wait.dtlb = false := by decide +kernel
  generalize ((((({} : Sys 1)).step d1).1.step d2).1.step d3).1 = s at *
  intro t ht
  have hk : t.route.owner ≠ .dtlb ∧ t.route.wait.dtlb = false := by
    induction ht with
    | refl => exact ⟨ho, hw⟩
    | step _ _ hd ih => exact (forgotten ih.1 ih.2).2.2 hd
  intro c _
  have := forgotten (c := c) hk.1 hk.2
  exact ⟨this.1, this.2.1⟩

end RouteRun
end Verif.Props

import Verif.Proofs.IdealIc
/-
C134: with the ideal instruction cache the front end gets, for every address it sends, the group of instructions at that address, in order, none lost.
-/
namespace Verif.Props
open Verif.IdealIc Verif.IdealIcSpec Verif.IdealIcProofs

/-- C134, the groups: every group the cache gives, in whatever state, is the right one for the address it is labelled with. -/
theorem C134_group (c : Cfg) (s : St) (i : In) (a : Addr) (g : List Slot) (h : answer c s i = some (a, g)) : RightGroup c i a g :=
  answer_right s i a g h

/-- C134 while the MMU never asks for a retry: the groups taken are those of the addresses sent, in order. -/
theorem C134_order_partial (c : Cfg) (is : List In) (h : ∀ i ∈ is, i.reset = false ∧ ∀ v, i.xl v ≠ .retry) :
    (taken c {} is).map Prod.fst = sent is :=
  taken_sent is {} rfl h

/-- C134 with retries, for a front end that asks only when the cache says it is ready and that takes every answer: the addresses answered are those
sent, in order, with at most the last one still waiting. -/
theorem C134_ready_partial (c : Cfg) (satp : Addr) (is : List In) (hc : Calm satp is) (hp : Polite c {} is) :
    sent is = (given c {} is).map Prod.fst ++ (is.foldl (step c) {}).pend.toList := by
  have := given_polite (c := c) satp is {} ⟨fun _ => rfl, fun h => by cases h⟩ hc hp
  simpa using this

/-- A request for which the MMU needs another cycle. -/
def icMiss (a : Addr) : In := { want := true, addr := a, xl := fun _ => .retry }

/-- A request that is translated at once. -/
def icAsk (a : Addr) : In := { want := true, addr := a }

/-- C134 fails with the front end as it is, which takes the cache to be ready in every cycle: after one retry for any address `a` the next address `b`
is lost - the group taken in its cycle is that of `a`, and nothing is left waiting - for all `a` and `b`. -/
theorem C134_lost (c : Cfg) (hw : 0 < c.width) (a b : Addr) :
    (taken c {} [icMiss a, icAsk b]).map Prod.fst = [a] ∧ sent [icMiss a, icAsk b] = [a, b] ∧
    ([icMiss a, icAsk b].foldl (step c) {}).pend = none := by
  have h1 : answer c {} (icMiss a) = none := by
    obtain ⟨n, hn⟩ : ∃ n, c.width = n + 1 := ⟨c.width - 1, by omega⟩
    have hf : (fill c (icMiss a) a c.width 0).2 = false := by
      rw [hn]
      unfold fill
      rw [if_neg (by simp [va])]
      rfl
    show (if (fill c (icMiss a) a c.width 0).2 then some (a, (fill c (icMiss a) a c.width 0).1) else none) = none
    rw [hf]; rfl
  have h2 : step c {} (icMiss a) = { pend := some a, satpSeen := true } := by
    unfold step
    rw [h1]
    rfl
  have hf : (fill c (icAsk b) a c.width 0).2 = true := fill_done _ _ (fun v h => by cases h) _ _
  have h3 : answer c { pend := some a, satpSeen := true } (icAsk b) = some (a, (fill c (icAsk b) a c.width 0).1) := by
    show (if (fill c (icAsk b) a c.width 0).2 then some (a, (fill c (icAsk b) a c.width 0).1) else none) = _
    rw [hf]; rfl
  refine ⟨?_, rfl, ?_⟩
  · simp only [taken, h1, h2, h3]
    rfl
  · simp only [List.foldl_cons, List.foldl_nil, h2]
    unfold step
    rw [h3]
    rfl

/-- C134, the other loss: if no address is sent in the cycle of the late answer, the answer is not taken. -/
theorem C134_untaken : ∃ (c : Cfg) (is : List In) (a : Addr), sent is = [a] ∧ (given c {} is).map Prod.fst = [a] ∧ taken c {} is = [] :=
  ⟨⟨4, 64⟩, [icMiss 0x80000000#32, {}], 0x80000000#32, by decide +kernel, by decide +kernel, by decide +kernel⟩

/-! Concrete cases. -/

/-- Two pages, the second with a fault; every word holds its own address. -/
def icMem (a : Addr) : In := { want := true, addr := a, mem := id, xl := fun v => if v.toNat < 0x80001000 then .ok (v + 0x1000#32) else .fault }

-- A group that ends with its line, one that faults, and one in the middle of a line.
example : answer ⟨4, 64⟩ {} (icMem 0x80000038#32) =
    some (0x80000038#32, [⟨0x80001038#32, false, true⟩, ⟨0x8000103c#32, false, true⟩, blank, blank]) := by decide +kernel
example : answer ⟨4, 64⟩ {} (icMem 0x80001000#32) = some (0x80001000#32, [⟨0x13#32, true, true⟩, blank, blank, blank]) := by decide +kernel
example : (taken ⟨4, 64⟩ {} [icMem 0x80000000#32, icMem 0x80001000#32, icMem 0x80000010#32]).map Prod.fst =
    [0x80000000#32, 0x80001000#32, 0x80000010#32] := by decide +kernel
-- A front end that waits gets both.
example : Polite ⟨4, 64⟩ {} [icMiss 0x80000000#32, { xl := fun _ => .retry }, {}, icAsk 0x80000010#32] ∧
    (given ⟨4, 64⟩ {} [icMiss 0x80000000#32, { xl := fun _ => .retry }, {}, icAsk 0x80000010#32]).map Prod.fst =
      [0x80000000#32, 0x80000010#32] := by
  refine ⟨⟨fun _ => (by decide +kernel), ⟨fun h => (by cases h), ⟨fun h => (by cases h), ⟨fun _ => (by decide +kernel), trivial⟩⟩⟩⟩, by decide +kernel⟩
example : Calm 0#32 [icMiss 0x80000000#32, { xl := fun _ => .retry }, {}, icAsk 0x80000010#32] := by
  intro i hi
  simp only [List.mem_cons, List.not_mem_nil, or_false] at hi
  rcases hi with rfl | rfl | rfl | rfl <;> exact ⟨rfl, rfl, rfl, rfl, rfl⟩

end Verif.Props

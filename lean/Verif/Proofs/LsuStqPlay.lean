import Verif.Proofs.LsuStqCycle

/-
Concrete runs of the store side: a driver that checks each cycle against `Valid`.
-/
namespace Verif.LsuStq

open Verif.LsuList (Tlb)

/-- One cycle of a concrete run; translations hit unless the store is listed (`hold`: no answer yet). -/
structure Act where
  commits : Nat := 0
  data : List Nat := []
  addr : List (Nat × Bool) := []
  miss : List Nat := []
  fault : List Nat := []
  hold : List Nat := []
  alloc : Nat := 0
  flush : Bool := false
  keep : Option Nat := none
  retire : Nat := 0

def Act.inp (a : Act) : In :=
  { commits := a.commits, data := a.data, addr := a.addr,
    tlb := fun x => if a.hold.contains x then none else if a.miss.contains x then some .miss
      else if a.fault.contains x then some .fault else some .hit,
    alloc := a.alloc, flush := a.flush, keep := a.keep, retire := a.retire }

def Act.good (c : Cfg) (width : Nat) (y : Sys) (a : Act) : Bool :=
  ((List.range a.commits).all fun i => decide (y.s.com + i < y.s.count) && decide ((y.s.ent (y.s.at c (y.s.com + i))).st = .waitCommit)) &&
  decide (a.data.length ≤ c.sdu) && decide (a.addr.length ≤ c.sta) &&
  decide a.data.Nodup && (a.data.all fun x => y.s.live c x && !(y.s.ent x).dv) &&
  decide (a.addr.map (·.1)).Nodup && (a.addr.all fun x => y.s.live c x.1 && decide ((y.s.ent x.1).st = .allocated)) &&
  decide (a.alloc ≤ width) && decide (a.alloc ≤ y.s.free c) &&
  (match a.keep with
   | some k => decide (y.s.com + a.commits ≤ k)
   | none => true)

theorem Act.valid {c : Cfg} {width : Nat} {y : Sys} {a : Act} (h : a.good c width y = true) : Valid c width y a.inp := by
  simp only [Act.good, Bool.and_eq_true, List.all_eq_true, decide_eq_true_eq, List.mem_range, Bool.not_eq_true'] at h
  obtain ⟨⟨⟨⟨⟨⟨⟨⟨⟨h1, h2⟩, h3⟩, h4⟩, h5⟩, h6⟩, h7⟩, h8⟩, h9⟩, h10⟩ := h
  refine ⟨h1, ⟨h2, h3⟩, ⟨h4, h5⟩, ⟨h6, h7⟩, ⟨h8, h9⟩, fun k hk => ?_⟩
  have hk : a.keep = some k := hk
  rw [hk] at h10
  exact of_decide_eq_true h10

/-- A run; `none` when a cycle is not allowed or fails. -/
def play (c : Cfg) (width : Nat) : Sys → List Act → Option Sys
  | y, [] => some y
  | y, a :: as => if a.good c width y then (y.cycle c a.inp).bind fun y' => play c width y' as else none

theorem play_reach {c : Cfg} {width : Nat} : ∀ (as : List Act) {y y' : Sys}, Reach c width y → play c width y as = some y' → Reach c width y'
  | [], _, _, h, e => by cases e; exact h
  | a :: as, y, y', h, e => by
    rw [play] at e
    split at e
    · next hg =>
      cases hc : y.cycle c a.inp with
      | none => rw [hc] at e; simp at e
      | some y1 => rw [hc] at e; exact play_reach as (.step _ h (Act.valid hg) hc) e
    · simp at e

end Verif.LsuStq

import Verif.Props.Fetch
import Verif.Proofs.FetchBitsSim
/-
C119: the front end with its instruction cache as it runs, through the bit-packed interfaces.
-/
namespace Verif.Props
open Verif.ICache
open Verif.Fetch
open Verif.FetchStream
open Verif.ICacheBits
open Verif.Front (Cfg St Obs Resp)

variable {W : Nat} {M : Type}

/-- C119: the bit-packed cache and the cache of C80 have the same executions: the same events, with the front end and
the ports in the same state. -/
theorem C119_same (k : Cfg) (tr : List (Ev W M)) (w : World) (f : St W M) (e : Env) :
    (∃ c, PRun k tr w ⟨f, ⟨c, e⟩⟩) ↔ ∃ c, FRun k tr w ⟨f, ⟨c, e⟩⟩ := by
  constructor
  · rintro ⟨c, h⟩
    obtain ⟨⟨f', ⟨c', e'⟩⟩, ha, h1, h2, _⟩ := prun_sim h
    dsimp only at h1 h2
    subst h1 h2
    exact ⟨c', ha⟩
  · rintro ⟨c, h⟩
    obtain ⟨⟨f', ⟨c', e'⟩⟩, hs, h1, h2, _⟩ := frun_sim h
    dsimp only at h1 h2
    subst h1 h2
    exact ⟨c', hs⟩

/-- C119: what is on the wires whose flag is off makes no difference to the front end or the ports. -/
theorem C119_junk {k : Cfg} {tr : List (Ev W M)} {w : World} {s : PBoth W M} (h : PRun k tr w s) (i : In W M) (x y x' y' : Junk) :
    (s.cycle k i x y).map (fun z => (z.1.f, z.1.ic.e, z.2)) = (s.cycle k i x' y').map fun z => (z.1.f, z.1.ic.e, z.2) := by
  obtain ⟨a, _, hr⟩ := prun_sim h
  rcases cycle_sim k hr i x y with ⟨h1, h2⟩ | ⟨s1, a1, r1, o1, h1, h2, h3⟩ <;>
    rcases cycle_sim k hr i x' y' with ⟨g1, g2⟩ | ⟨s2, a2, r2, o2, g1, g2, g3⟩
  · rw [h1, g1]
  · rw [h2] at g2; cases g2
  · rw [h2] at g2; cases g2
  · rw [h2] at g2
    cases g2
    rw [h1, g1]
    show some (s1.f, s1.ic.e, r1, o1) = some (s2.f, s2.ic.e, r1, o1)
    rw [← h3.f, ← g3.f, ← h3.e, ← g3.e]

variable [NeZero W] [DecidableEq M]

/-- C119: no execution leaves the program: no array of bits is too short for what is written to it or read from it, no
state has an unknown number, no answer comes with a miss, and the queues of the front end do not overflow. -/
theorem C119_no_abort {k : Cfg} (hcap : k.ptabCap - 1 ≤ k.instCap) {tr : List (Ev W M)} {w : World} {s : PBoth W M}
    (h : PRun k tr w s) (i : In W M) (x y : Junk) (hi : OkIn w s.env i) : (s.cycle k i x y).isSome = true := by
  obtain ⟨a, ha, hr⟩ := prun_sim h
  have hn := C80_no_abort hcap ha i ((okIn_env hr i).mp hi)
  rcases cycle_sim k hr i x y with ⟨_, h1⟩ | ⟨s', a', resp, o, h1, _, _⟩
  · rw [h1] at hn; cases hn
  · rw [h1]; rfl

/-- C119: the groups handed to the back end form one path, and hold the words of their addresses. -/
theorem C119_fetch {k : Cfg} (hcap : k.ptabCap - 1 ≤ k.instCap) {tr : List (Ev W M)} {e : Ev W M} {w : World}
    {s : PBoth W M} (h : PRun k (e :: tr) w s) (g : Front.Out W M) (hg : e.out = some g) :
    e.redirect = none ∧ (∀ j : Fin W, g.pc j = want k.resetPc tr + BitVec.ofNat 32 (j.val * 4)) ∧
      Lanes w (want k.resetPc tr) g.insts g.pf g.valid := by
  obtain ⟨a, ha, _⟩ := prun_sim h
  exact C80_fetch hcap ha g hg

/-! ### A run -/

namespace FetchBitsRun
open FetchRun (k world line script outs)

/-- Ones on the wires whose flag is off. -/
def ones : Junk :=
  { pc := 0xFFFFFFFF#32, off := fun _ => 0xFFF#12, accId := 0xFFFFFFFF#32, respId := 0xFFFFFFFF#32, resp := fun _ => 0xFFFFFFFF#32
    dcMiss := false, dcData := 0xFFFFFFFF#32, itlbFlush := true }

def go : List (Option W32) → List (Ev 2 Unit) × PBoth 2 Unit → Option (List (Ev 2 Unit) × PBoth 2 Unit)
  | [], x => some x
  | r :: l, (tr, s) => (s.cycle k (FetchRun.inp s.env r) ones ones).bind fun y =>
    go l (⟨false, if (FetchRun.inp s.env r).refetch then some (FetchRun.inp s.env r).refetchAddr else none, y.2.1, y.2.2.out⟩ :: tr, y.1)

theorem go_run {l : List (Option W32)} {x y : List (Ev 2 Unit) × PBoth 2 Unit} (h : PRun k x.1 world x.2)
    (e : go l x = some y) : PRun k y.1 world y.2 := by
  induction l generalizing x with
  | nil => simp only [go, Option.some.injEq] at e; subst e; exact h
  | cons r l ih =>
    rw [go, Option.bind_eq_some_iff] at e
    obtain ⟨⟨s', resp, o⟩, e1, e2⟩ := e
    exact ih (.step _ _ _ h (FetchRun.inp_ok _ _) ⟨fun _ => rfl, fun _ => ⟨rfl, rfl, rfl⟩⟩ e1) e2

/-- Both drivers, step by step. -/
theorem go_same (l : List (Option W32)) : ∀ (tr : List (Ev 2 Unit)) (s : PBoth 2 Unit) (a : Both 2 Unit), RelB s a →
    (go l (tr, s)).map (fun y => outs y.1) = (FetchRun.go l (tr, a)).map fun y => outs y.1 := by
  induction l with
  | nil => intro tr s a _; rfl
  | cons r l ih =>
    intro tr s a h
    have hi : FetchRun.inp s.env r = FetchRun.inp a r := by
      unfold FetchRun.inp PBoth.env
      rw [h.f, h.e]
    rw [go, FetchRun.go, hi]
    rcases cycle_sim k h (FetchRun.inp a r) ones ones with ⟨h1, h2⟩ | ⟨s', a', resp, o, h1, h2, h3⟩
    · rw [h1, h2]; rfl
    · rw [h1, h2]
      exact ih _ _ _ h3

end FetchBitsRun

open FetchBitsRun in
/-- The run of C80 through the packed interfaces, with ones on all wires whose flag is off: two lines read from memory,
the second because of a jump the predictor did not know; then a redirect to a page that faults. -/
example : ∃ y, go FetchRun.script ([], ⟨St.init FetchRun.k, {}⟩) = some y ∧ PRun FetchRun.k y.1 FetchRun.world y.2 ∧
    FetchRun.k.ptabCap - 1 ≤ FetchRun.k.instCap ∧ OkIn FetchRun.world y.2.env (FetchRun.inp y.2.env none) ∧
    FetchRun.outs y.1 = [(0x80000080#32, 0x00000013#32, 0x0400006F#32, false), (0x800000C4#32, 0x00000013#32, 0x00000013#32, false),
      (0x00001040#32, 0x00000013#32, 0x00000013#32, true)] := by
  have ho : (FetchRun.go FetchRun.script ([], ⟨St.init FetchRun.k, {}⟩)).map (fun y => FetchRun.outs y.1) =
      some [(0x80000080#32, 0x00000013#32, 0x0400006F#32, false), (0x800000C4#32, 0x00000013#32, 0x00000013#32, false),
        (0x00001040#32, 0x00000013#32, 0x00000013#32, true)] := by decide +kernel
  rw [← go_same _ [] ⟨St.init FetchRun.k, {}⟩ _ ⟨rfl, rfl, rel_init⟩, Option.map_eq_some_iff] at ho
  obtain ⟨y, hy, ho⟩ := ho
  exact ⟨y, hy, go_run (.init _) hy, by decide, FetchRun.inp_ok _ _, ho⟩

/-- The packed cache by itself, from reset: a request for the last word of a line in a page that faults, with ones on the
read port, is answered at once with one lane. -/
example : ((rcall 2 {} { reqV := true, pc := 0x103C#32, mmu := fun _ => .fault, mAccId := 0xFFFFFFFF#32 }).map fun z =>
    (z.2.complete, z.2.pc, (z.2.pf 0, z.2.valid 0), (z.2.pf 1, z.2.valid 1), z.1.r.reqV)) =
    some (true, 0x103C#32, (true, true), (false, false), false) := by decide +kernel

end Verif.Props

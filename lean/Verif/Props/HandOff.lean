import Verif.Proofs.HandOff
import Verif.Spec.CoreFlow

/-!
C111: what decode is offered is what the front end has fetched since the last redirect, along the predicted path, with the words
the surroundings hold.
-/
namespace Verif.Props
open Verif.HandOff
open Verif.Front (Cfg St Out W32)
open Verif.FetchStream (Ev)
open Verif.ICache (World)
open Verif.Fetch (In)

section
variable {W : Nat} [NeZero W] {k : Cfg} {MI N : Nat}

/-- C111: between redirects nothing is lost, doubled or reordered between the front end and decode: what has been decoded since
the last redirect, what waits in the instruction buffer and what the back end has not taken yet are, in this order, the
instructions of the groups the front end has handed over since then, each group up to its first instruction predicted
taken.  While a redirect is on its way, nothing waits. -/
theorem C111_exact (hcap : k.ptabCap - 1 ≤ k.instCap) {tr : List (Ev W Nat)} {w : World} {s : State W} (h : Reach k MI N tr w s) :
    (s.bo.redirect = true → s.got = [] ∧ s.q.wait = []) ∧
    (s.bo.redirect = false → s.got.map Insn.of ++ s.q.wait.map Insn.of ++ held s = delivered tr) :=
  have h := (reach_all hcap h).2.2
  ⟨h.gone, h.exact⟩

/-- C111: the instructions decoded since the last redirect and those waiting form one path from the redirect address: each is at
the predicted successor of the one before. -/
theorem C111_path (hcap : k.ptabCap - 1 ≤ k.instCap) (hline : k.line = 64#32) (hW : W * 4 ≤ 64) {tr : List (Ev W Nat)} {w : World}
    {s : State W} (h : Reach k MI N tr w s) : Path (some (start k.resetPc tr)) ((s.got ++ s.q.wait).map Insn.of) := by
  obtain ⟨h1, _, h3⟩ := reach_all hcap h
  cases hr : s.bo.redirect with
  | true => obtain ⟨a, b⟩ := h3.gone hr; rw [a, b]; trivial
  | false =>
    have := (frun_path hcap hline hW h1).1
    rw [← h3.exact hr, path_append] at this
    rw [List.map_append]
    exact this.1

/-- C111: every one of them is the word the surroundings hold at its translated address, or marked as a page fault where the MMU
says so. -/
theorem C111_words (hcap : k.ptabCap - 1 ≤ k.instCap) {tr : List (Ev W Nat)} {w : World} {s : State W} (h : Reach k MI N tr w s) :
    ∀ f ∈ s.got ++ s.q.wait, HandOff.Right w (Insn.of f) := by
  obtain ⟨h1, _, h3⟩ := reach_all hcap h
  intro f hf
  cases hr : s.bo.redirect with
  | true => obtain ⟨a, b⟩ := h3.gone hr; rw [a, b] at hf; cases hf
  | false =>
    refine frun_right hcap h1 _ ?_
    rw [← h3.exact hr, ← List.map_append]
    exact List.mem_append_left _ (List.mem_map_of_mem hf)

/-- C111: decode is offered the oldest of those that wait. -/
theorem C111_offered (hcap : k.ptabCap - 1 ≤ k.instCap) (hM : 0 < MI) (hN : 0 < N) {tr : List (Ev W Nat)} {w : World} {s : State W}
    (h : Reach k MI N tr w s) (D : Nat) :
    PreIdu.offered MI D s.q.pre = (s.q.wait.take D).map (fun f => some (some f.entry)) :=
  (C20_offered hM hN (reach_all hcap h).2.1 D).1

/-- C111: no cycle aborts, whatever the predictor and the back end do. -/
theorem C111_no_abort (hcap : k.ptabCap - 1 ≤ k.instCap) (hM : 0 < MI) (hN : 0 < N) {tr : List (Ev W Nat)} {w : World} {s : State W}
    (h : Reach k MI N tr w s) (i : In W Nat) (c : Back) (hi : Fetch.OkIn w s.fr (drive s.bo i))
    (hc : ∀ bin : Slots W Nat, FetchWindow.Valid s.q (window bin c)) : (cycle k MI N s i c).isSome = true := by
  obtain ⟨h1, h2, _⟩ := reach_all hcap h
  obtain ⟨⟨fr, resp, o⟩, e1⟩ := Option.isSome_iff_exists.mp (C80_no_abort hcap h1 _ hi)
  obtain ⟨q, e2⟩ := C20_no_assert hM hN h2 (window (take s.bo s.bin o.out) c) (hc _)
  unfold cycle
  rw [e1]
  simp only [Option.bind_eq_bind, Option.bind_some]
  rw [e2]
  rfl

/-- Where the next instruction to be decoded is expected: at the predicted successor of the last one, or where fetching was
sent. -/
def expected (k : Cfg) (tr : List (Ev W Nat)) (s : State W) : W32 :=
  match s.got.getLast? with
  | some f => (Insn.of f).pn
  | none => start k.resetPc tr

omit [NeZero W] in
theorem core_path {a : Option W32} {x : W32} {l : List FetchWindow.Flight} (h : Path a (l.map Insn.of)) (ha : a = some x)
    (hal : ∀ f ∈ l, f.entry.pc.toNat % 4 = 0) (br : FetchWindow.Flight → Nat) :
    Core.Path x (l.map fun f => some ⟨f.entry.pc, (Insn.of f).pn, br f⟩) := by
  induction l generalizing a x with
  | nil => trivial
  | cons f r ih =>
    refine ⟨h.1 x ha, ih h.2 ?_ fun g hg => hal g (List.mem_cons_of_mem _ hg)⟩
    exact if_pos (hal f List.mem_cons_self)

/-- C111: what C90-C92 and C110 assume of the front end: as long as the addresses are multiples of four, the instructions decode
takes are a piece of the predicted path from where the last redirect or the last instruction decoded leads. -/
theorem C111_core (hcap : k.ptabCap - 1 ≤ k.instCap) (hline : k.line = 64#32) (hW : W * 4 ≤ 64) {tr : List (Ev W Nat)} {w : World}
    {s : State W} (h : Reach k MI N tr w s) (hal : ∀ f ∈ s.got ++ s.q.wait, f.entry.pc.toNat % 4 = 0) (n : Nat)
    (br : FetchWindow.Flight → Nat) :
    Core.Path (expected k tr s) ((s.q.wait.take n).map fun f => some ⟨f.entry.pc, (Insn.of f).pn, br f⟩) := by
  have hp := C111_path hcap hline hW h
  rw [List.map_append, path_append] at hp
  have he : pathEnd (some (start k.resetPc tr)) (s.got.map Insn.of) = some (expected k tr s) := by
    unfold expected
    rcases List.eq_nil_or_concat s.got with hg | ⟨l, f, hg⟩
    · rw [hg]; rfl
    · rw [hg, List.concat_eq_append, List.map_append, pathEnd_append, List.getLast?_append]
      have := hal f (by rw [hg]; simp)
      simp [pathEnd, Insn.of, this]
  have h2 := hp.2
  rw [← List.take_append_drop n s.q.wait, List.map_append, path_append] at h2
  exact core_path h2.1 he (fun f hf => hal f (List.mem_append_right _ (List.mem_of_mem_take hf))) br

omit [NeZero W] in
/-- C111, with the oracle in the place of the front end: the one group it keeps for a stalling back end makes the hand-over as
exact. -/
theorem C111_oracle {del : List Insn} {s : OState W} (h : OReach MI N del s) :
    (s.bo.redirect = true → s.got = [] ∧ s.q.wait = []) ∧
    (s.bo.redirect = false → s.got.map Insn.of ++ s.q.wait.map Insn.of ++ s.held = del) :=
  have h := oinv_reach h
  ⟨h.gone, h.exact⟩

end

/-! ### A run -/

namespace HandOffRun
open Verif.Fetch (Both OkIn)

/-- Groups of two words, lines of 64 bytes, queues of four; an instruction buffer of three, three fetch blocks. -/
def k : Cfg := ⟨4, 4, 4, 4, true, true, 64#32, 0x80000080#32⟩

/-- The predictor always goes on behind the group; the surroundings answer at once. -/
def inp (s : State 2) : In 2 Nat :=
  { refetch := false, refetchAddr := 0#32, fenceI := false, hold := false, readEn := false
    bpNext := s.fr.f.pc + 8#32, bpDir := fun _ => false, bpInfo := 0
    mmu := fun v => some (ICacheRun.tr v)
    mReady := true
    acc := s.fr.ic.e.offer.isSome
    mResp := (List.finRange 16).findSome? fun t => (s.fr.ic.e.owed t).map fun x => (t, FetchRun.line x.1)
    probe := none }

/-- What the back end does in a cycle: how many it decodes and retires, and a redirect to an address by the `p`-th
instruction in flight, or by a flush. -/
inductive Do
  | work (fire retire : Nat)
  | mispred (p : Nat) (pc : W32)
  | flush (retire : Nat) (pc : W32)

def Do.back : Do → Back
  | .work f r => ⟨false, false, none, f, r, 0#32, false⟩
  | .mispred p pc => ⟨false, false, some p, 0, 0, pc, false⟩
  | .flush r pc => ⟨false, true, none, 0, r, pc, false⟩

/-- The back end's part of the assumptions. -/
def Do.ok (q : FetchWindow.Sys) : Do → Bool
  | .work f r => decide (f ≤ q.wait.length) && decide (r ≤ q.flight.length)
  | .mispred p _ => decide (p < q.flight.length)
  | .flush r _ => decide (r ≤ q.flight.length)

def go : List Do → List (Ev 2 Nat) × State 2 → Option (List (Ev 2 Nat) × State 2)
  | [], x => some x
  | d :: l, (tr, s) => if d.ok s.q then (cycle k 3 3 s (inp s) d.back).bind fun y => go l (y.2 :: tr, y.1) else none

theorem ok_valid {q : FetchWindow.Sys} {d : Do} {b : Slots 2 Nat} (h : d.ok q = true) : FetchWindow.Valid q (window b d.back) := by
  cases d with
  | work f r =>
    simp only [Do.ok, Bool.and_eq_true, decide_eq_true_eq] at h
    exact ⟨h.1, h.2, fun p hp => (by cases hp)⟩
  | mispred p pc =>
    simp only [Do.ok, decide_eq_true_eq] at h
    refine ⟨Nat.zero_le _, Nat.zero_le _, fun p' hp => ?_⟩
    cases hp
    exact ⟨h, rfl⟩
  | flush r pc =>
    simp only [Do.ok, decide_eq_true_eq] at h
    exact ⟨Nat.zero_le _, h, fun p hp => (by cases hp)⟩

/-- `fence.i` is never asked for. -/
theorem no_fence {s s' : State 2} {e : Ev 2 Nat} {d : Do} (h : cycle k 3 3 s (inp s) d.back = some (s', e)) : s'.bo.fenceI = false := by
  obtain ⟨_, _, _, _, _, _, _, rfl⟩ := cycle_parts h
  cases d <;> rfl

theorem inp_ok (s : State 2) (hf : s.bo.fenceI = false) : OkIn FetchRun.world s.fr (drive s.bo (inp s)) := by
  refine ⟨fun v x h => ?_, fun t l h => ?_, fun a _ => trivial, fun h => h, fun h => ?_⟩
  · simp only [drive, inp, Option.some.injEq] at h
    exact h.symm
  · left
    simp only [drive, inp] at h
    obtain ⟨t', _, h⟩ := List.exists_of_findSome?_eq_some h
    rw [Option.map_eq_some_iff] at h
    obtain ⟨⟨a, f⟩, h1, h2⟩ := h
    cases h2
    exact ⟨a, f, h1, fun _ => rfl⟩
  · rw [show (drive s.bo (inp s)).fenceI = s.bo.fenceI from rfl, hf] at h; cases h

theorem go_run {l : List Do} {x y : List (Ev 2 Nat) × State 2} (h : Reach k 3 3 x.1 FetchRun.world x.2) (hf : x.2.bo.fenceI = false)
    (e : go l x = some y) : Reach k 3 3 y.1 FetchRun.world y.2 := by
  induction l generalizing x with
  | nil => simp only [go, Option.some.injEq] at e; subst e; exact h
  | cons d l ih =>
    obtain ⟨tr, s⟩ := x
    rw [go] at e
    split at e
    · rename_i hok
      rw [Option.bind_eq_some_iff] at e
      obtain ⟨⟨s', ev⟩, e1, e2⟩ := e
      exact ih (.step _ _ h e1 ⟨inp_ok s hf, ⟨fun _ => rfl, fun _ => ⟨rfl, rfl, rfl⟩⟩, ok_valid hok⟩) (no_fence e1) e2
    · cases e

def start0 : List (Ev 2 Nat) × State 2 := ([], { fr := ⟨St.init k, {}⟩, q := ⟨PreIdu.init, [], []⟩ })

/-- Decoded, waiting, held back; and whether the back end stalls. -/
def look (x : List (Ev 2 Nat) × State 2) : List W32 × List W32 × List W32 × Bool :=
  (x.2.got.map (·.entry.pc), x.2.q.wait.map (·.entry.pc), (held x.2).map (·.pc), x.2.bo.stall)

/-- The back end decodes nothing until the buffer is full, then one instruction. -/
def script : List Do := List.replicate 14 (.work 0 0) ++ [.work 1 0]

/-- Two more, the second while one retires; then the oldest one in flight is found mispredicted. -/
def script2 : List Do := script ++ [.work 1 0, .work 1 1, .mispred 0 0x80000074#32] ++ List.replicate 9 (.work 0 0)

/-- The same with a flush that leads to an address that is no multiple of four, at the end of a line. -/
def script3 : List Do := script ++ [.work 1 0, .work 1 1, .flush 0 0x8000007E#32] ++ List.replicate 10 (.work 0 0)

theorem reached {l : List Do} {x : List W32 × List W32 × List W32 × Bool} (h : (go l start0).map look = some x) :
    ∃ y, Reach k 3 3 y.1 FetchRun.world y.2 ∧ look y = x := by
  obtain ⟨y, hy, rfl⟩ := Option.map_eq_some_iff.mp h
  exact ⟨y, go_run (.init _) rfl hy, rfl⟩

end HandOffRun

open HandOffRun in
/-- The buffer is full, the group at the target of the `jal` is held back. -/
example : k.ptabCap - 1 ≤ k.instCap ∧ k.line = 64#32 ∧
    ∃ y, Reach k 3 3 y.1 FetchRun.world y.2 ∧
      look y = ([0x80000080#32], [0x80000084#32], [0x800000C4#32, 0x800000C8#32], true) :=
  ⟨by decide, rfl, reached (l := script) (by decide +kernel)⟩

open HandOffRun in
/-- After the redirect: everything waiting is dropped, and fetching goes on at its address. -/
example : ∃ y, Reach k 3 3 y.1 FetchRun.world y.2 ∧
    look y = ([], [0x80000074#32, 0x80000078#32, 0x8000007C#32], [], true) :=
  reached (l := script2) (by decide +kernel)

open HandOffRun in
/-- Why C111 says nothing behind an address that is no multiple of four: from `0x8000007E`, the last in its line, fetching goes on
at the start of the next line, not four bytes further. -/
example : ∃ y, Reach k 3 3 y.1 FetchRun.world y.2 ∧
    look y = ([], [0x8000007E#32, 0x80000080#32, 0x80000084#32], [], false) :=
  reached (l := script3) (by decide +kernel)

namespace HandOffRun

/-! With the oracle. -/

def grp (pc : W32) : Out 2 Nat := ⟨fun _ => 0x00000013#32, fun j => pc + BitVec.ofNat 32 (4 * j.val), fun _ => false, fun _ => true, fun _ => false, pc + 8#32, 0⟩

def ogo : List (W32 × Do) → List Insn × OState 2 → Option (List Insn × OState 2)
  | [], x => some x
  | d :: l, (del, s) => if d.2.ok s.q then (ocycle 3 3 s (some (grp d.1)) d.2.back).bind fun y =>
      ogo l (odeliver s (some (grp d.1)) del, y) else none

theorem ogo_run {l : List (W32 × Do)} {x y : List Insn × OState 2} (h : OReach 3 3 x.1 x.2) (e : ogo l x = some y) :
    OReach 3 3 y.1 y.2 := by
  induction l generalizing x with
  | nil => simp only [ogo, Option.some.injEq] at e; subst e; exact h
  | cons d l ih =>
    obtain ⟨tr, s⟩ := x
    rw [ogo] at e
    split at e
    · rename_i hok
      rw [Option.bind_eq_some_iff] at e
      obtain ⟨y, e1, e2⟩ := e
      exact ih (.step _ _ h e1 (ok_valid hok)) e2
    · cases e

def olook (x : List Insn × OState 2) : List W32 × List W32 × List W32 × List W32 :=
  (x.1.map (·.pc), x.2.got.map (·.entry.pc), x.2.q.wait.map (·.entry.pc), x.2.held.map (·.pc))

def oscript : List (W32 × Do) :=
  [(0x100#32, .work 0 0), (0x108#32, .work 0 0), (0x200#32, .work 0 0), (0x300#32, .work 2 0), (0x400#32, .work 0 0), (0x110#32, .work 1 0)]

end HandOffRun

open HandOffRun in
/-- The second group waits for three cycles; what the oracle would have said in the meantime is not asked for. -/
example : ∃ y : List Insn × OState 2, OReach 3 3 y.1 y.2 ∧
    olook y = ([0x100#32, 0x104#32, 0x108#32, 0x10C#32, 0x110#32, 0x114#32], [0x100#32, 0x104#32, 0x108#32], [0x10C#32], [0x110#32, 0x114#32]) := by
  have h : (ogo oscript ([], { q := ⟨PreIdu.init, [], []⟩ })).map olook =
      some ([0x100#32, 0x104#32, 0x108#32, 0x10C#32, 0x110#32, 0x114#32], [0x100#32, 0x104#32, 0x108#32], [0x10C#32], [0x110#32, 0x114#32]) := by
    decide +kernel
  obtain ⟨y, hy, h⟩ := Option.map_eq_some_iff.mp h
  exact ⟨y, ogo_run .init hy, h⟩

end Verif.Props

import Verif.Proofs.PreIdu
/-
C20, C21: the instruction buffer and the fetch-target queue, for any sizes `M` and `N`.
-/
namespace Verif.Props
open Verif.Ring Verif.PreIdu Verif.FetchWindow Verif.Proofs.PreIdu

/-- C20: under any sequence of operations the instruction buffer behaves as a FIFO of capacity `M`
— it refuses exactly the operations the FIFO refuses, has its occupancy, and reading position `k`
gives the `k`-th oldest entry. -/
theorem C20_fifo {α : Type} {M : Nat} (hM : 0 < M) (ops : List (Op α)) :
    match ops.foldlM (FetchWindow.apply M) (IBuf.clear α), ops.foldlM (fifo M) [] with
    | some b, some l => b.count = l.length ∧ l.length ≤ M ∧ ∀ k, b.peek M k = (l[k]?).map some
    | none, none => True
    | _, _ => False := by
  have key : ∀ (ops : List (Op α)) (b : IBuf α) (l : List α), IInv M b l →
      match ops.foldlM (FetchWindow.apply M) b, ops.foldlM (fifo M) l with
      | some b, some l => IInv M b l
      | none, none => True
      | _, _ => False := by
    intro ops
    induction ops with
    | nil => intro b l h; exact h
    | cons o ops ih =>
      intro b l h
      rw [List.foldlM_cons, List.foldlM_cons]
      cases o with
      | push e =>
        simp only [FetchWindow.apply, fifo]
        by_cases hl : l.length < M
        · obtain ⟨b', hb', h'⟩ := (iinv_push h e).2 hl
          rw [hb', if_pos hl]
          exact ih b' _ h'
        · rw [(iinv_push h e).1, if_neg hl, if_neg hl]
          trivial
      | pop n => exact ih _ _ (iinv_pop h n)
      | clear => exact ih _ _ (iinv_clear hM)
  have := key ops _ _ (iinv_clear hM)
  revert this
  cases ops.foldlM (FetchWindow.apply M) (IBuf.clear α) <;> cases ops.foldlM (fifo M) [] <;> intro h
  · trivial
  · exact h
  · exact h
  · exact ⟨h.count, h.len, fun k => iinv_peek h k⟩

variable {M N : Nat} {s : Sys}

/-- C20: in the machine no assertion of the buffer ever fails: what decode reads is there, what is
accepted from the front end fits. -/
theorem C20_no_assert (hM : 0 < M) (hN : 0 < N) (h : Reach M N s) (i : FetchWindow.Input)
    (hv : Valid s i) : ∃ s', step M N s i = some s' := by
  obtain ⟨W, hW⟩ := sinv_reach hM hN h
  obtain ⟨s', hs', _⟩ := sinv_step hW i hv
  exact ⟨s', hs'⟩

/-- C20: decode is offered the oldest waiting instructions, in order. -/
theorem C20_offered (hM : 0 < M) (hN : 0 < N) (h : Reach M N s) (D : Nat) :
    offered M D s.pre = (s.wait.take D).map (fun f => some (some f.entry)) ∧
    s.pre.ibuf.count = s.wait.length ∧ s.wait.length ≤ M := by
  obtain ⟨W, hW⟩ := sinv_reach hM hN h
  have hc := hW.ib.count
  have hl := hW.ib.len
  rw [List.length_map] at hc hl
  refine ⟨?_, hc, hl⟩
  apply List.ext_getElem?
  intro k
  rw [offered, List.getElem?_map, List.getElem?_map, hc]
  have hmin : (if s.wait.length < D then s.wait.length else D) = min s.wait.length D := by
    split <;> omega
  rw [hmin]
  by_cases hk : k < min s.wait.length D
  · have hk1 : k < s.wait.length := by omega
    rw [List.getElem?_range hk, List.getElem?_take, if_pos (by omega), Option.map_some, iinv_peek hW.ib,
      List.getElem?_map, List.getElem?_eq_getElem hk1]
    rfl
  · rw [List.getElem?_eq_none (by simpa using hk), List.getElem?_eq_none (by rw [List.length_take]; omega)]
    rfl

/-- C21: every instruction decoded and not retired, or waiting for decode, finds under its index the
pcs and predictions of its own fetch block, as delivered by the front end. -/
theorem C21_lookup (hM : 0 < M) (hN : 0 < N) (h : Reach M N s) (f : Flight)
    (hf : f ∈ s.flight ++ s.wait) :
    lookup s.pre f.entry.ftqIdx f.entry.offset =
      (true, f.blk.slotPc f.entry.offset, f.blk.taken f.entry.offset, f.blk.nextPc) ∧
    f.entry.pc = f.blk.slotPc f.entry.offset := by
  obtain ⟨W, hW⟩ := sinv_reach hM hN h
  obtain ⟨k, h1, h2, h3, h4⟩ := chain_mem _ hW.fq.headLt hW.chain hf
  have hl := hW.fq.len
  have hent : s.pre.ftq.ent f.entry.ftqIdx = f.blk := by
    have := ring_getElem? N s.pre.ftq.ent W.length s.pre.ftq.head k hW.fq.headLt h1
    rw [hW.fq.win, h3] at this
    rw [h2]; exact (Option.some.inj this).symm
  refine ⟨?_, h4⟩
  rw [lookup, hent, h2, hW.fq.valid k (by omega)]
  simp [h1]

/-- C21: the occupancy counter is the number of live blocks (blocks whose last instruction has
not retired), at most `N`. -/
theorem C21_count (hM : 0 < M) (hN : 0 < N) (h : Reach M N s) :
    s.pre.ftq.count = (s.flight ++ s.wait).countP (·.last) ∧ s.pre.ftq.count ≤ N := by
  obtain ⟨W, hW⟩ := sinv_reach hM hN h
  have h1 := chain_lasts _ hW.chain
  have h2 := hW.fq.len
  rw [hW.fq.count]
  exact ⟨h1.symm, h2⟩

/-- C21: when instructions retire, each is handed the training data of its own block; the assertion
that their indices follow the queue never fails. -/
theorem C21_commit (hM : 0 < M) (hN : 0 < N) (h : Reach M N s) (n : Nat) :
    commitInfo N s.pre.ftq s.pre.ftq.head (decide (s.pre.ftq.count > 0))
        ((s.flight.take n).map fun f => (f.entry.ftqIdx, f.last))
      = some ((s.flight.take n).map fun f => some f.blk.train) := by
  obtain ⟨W, hW⟩ := sinv_reach hM hN h
  have hh := hW.fq.headLt
  have hc := hW.chain
  cases W with
  | nil =>
    have hnil : s.flight = [] := by
      cases hfl : s.flight with
      | nil => rfl
      | cons a A => rw [hfl] at hc; exact absurd hc (by simp [Chain])
    rw [hnil]
    simp [commitInfo_nil]
  | cons b W =>
    have : decide (s.pre.ftq.count > 0) = true := by rw [hW.fq.count]; simp
    rw [this]
    have hsplit : s.flight ++ s.wait = s.flight.take n ++ (s.flight.drop n ++ s.wait) := by
      rw [← List.append_assoc, List.take_append_drop]
    rw [hsplit] at hc
    have := commitInfo_spec hW.fq (s.flight.take n) (R := s.flight.drop n ++ s.wait) 0 (by simp)
      (by rw [Nat.add_zero, Nat.mod_eq_of_lt hh]; exact hc)
    rwa [Nat.add_zero, Nat.mod_eq_of_lt hh] at this

/-! ### A concrete run: buffer of 6, queue of 2 -/

def blk (pc : BitVec 32) (t : Nat) : Block := ⟨fun k => pc + 4 * k, fun k => k == 2, pc + 16, t⟩
def fin0 : FetchWindow.Input := ⟨[some (1, false), none, some (3, false)], blk 0x100 7, false, false, none, 0, 0⟩
def fin1 : FetchWindow.Input := ⟨[some (4, false), some (5, true)], blk 0x200 8, true, false, none, 0, 0⟩
def fin1' : FetchWindow.Input := { fin1 with sawFlush := false, fire := 2 }
/-- decode takes one more; the front end offers a third block, refused: the queue is full -/
def fin2 : FetchWindow.Input := { fin1 with sawFlush := false, fire := 1 }
/-- the first instruction (offset 0 of block 0x100) turns out mispredicted -/
def fin3 : FetchWindow.Input := { fin1 with mispred := some 0 }

def fs0 : Sys := ⟨PreIdu.init, [], []⟩
def run (is : List FetchWindow.Input) : Option Sys := is.foldlM (FetchWindow.step 6 2) fs0

def view (s : Sys) : List (Nat × Nat × Bool) × List (Nat × Nat × Bool) × Nat :=
  (s.flight.map fun f => (f.entry.ftqIdx, f.entry.offset, f.last),
   s.wait.map fun f => (f.entry.ftqIdx, f.entry.offset, f.last), s.pre.ftq.count)

example : (run [fin0]).map view = some ([], [(0, 0, false), (0, 2, true)], 1) := by decide
example : (run [fin0, fin1', fin2]).map view =
    some ([(0, 0, false), (0, 2, true), (1, 0, false)], [(1, 1, true)], 2) := by decide
example : (run [fin0, fin1', fin2, fin3]).map view = some ([(0, 0, true)], [], 1) := by decide
example : (run [fin0, fin1', fin2]).map (fun s => lookup s.pre 1 1) =
    some (true, 0x204#32, false, 0x210#32) := by decide
example : (run [fin0, fin1', fin2]).map (fun s => lookup s.pre 0 2) =
    some (true, 0x108#32, true, 0x110#32) := by decide
example : (run [fin0, fin1', fin2]).bind (fun s => commitInfo 2 s.pre.ftq s.pre.ftq.head true
    ((s.flight.take 3).map fun f => (f.entry.ftqIdx, f.last))) = some [some 7, some 7, some 8] := by decide
example : Valid fs0 fin0 := ⟨by decide, by decide, by intro p hp; cases hp⟩
example : Reach 6 2 fs0 := .init
-- the FIFO wraps around
example : ([.push 1, .push 2, .pop 1, .push 3].foldlM (FetchWindow.apply 2) (IBuf.clear Nat)).map
    (fun b => (b.peek 2 0, b.peek 2 1, b.peek 2 2)) = some (some (some 2), some (some 3), none) := by decide
example : ([.push 1, .push 2, .push 3].foldlM (FetchWindow.apply 2) (IBuf.clear Nat)).isNone = true := by decide

end Verif.Props

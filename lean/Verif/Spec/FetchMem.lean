import Verif.Model.ICacheSys
/-
What an answer of the instruction cache has to be, given what the surroundings hold.
-/
namespace Verif.ICache

/-- The physical address of `pc` in page `p`. -/
def phys (p : Ppn) (pc : W32) : W32 := p ++ pc.extractLsb' 0 12

/-- The address of the first byte of the 64-byte line that holds address `a`. -/
def lineOf (a : W32) : W32 := a &&& ~~~63#32

/-- Word `k` of the line at `a`. -/
def wordAt (a : W32) (k : Fin 16) : W32 := a + BitVec.ofNat 32 (k.val * 4)

/-- A line whose content the surroundings have reported: either the data cache had every word of it, or the memory
returned it and the data cache missed a word of it. -/
def Fill (w : World) (a : W32) (l : Line) : Prop :=
  (∀ k, w.hit (wordAt a k) (l k)) ∨ (w.mem a l ∧ ∃ k, w.miss (wordAt a k))

/-- A right answer to a request for `pc`: a page fault if the MMU says so, otherwise the line of the translated
address. -/
def Answer (w : World) (pc : W32) : Option Line → Prop
  | none => w.xlat (vpnOf pc) .fault
  | some l => ∃ p, w.xlat (vpnOf pc) (.page p) ∧ Fill w (lineOf (phys p pc)) l

/-- The right lanes for a group at `pc`.  Unless the MMU says that fetching from the page faults, lane `j` is valid if
the word `j` words behind `pc` is in the 64-byte line of `pc`, and is then that word of the line at the translated
address. -/
def Lanes {W : Nat} (w : World) (pc : W32) (insts : Fin W → W32) (pf valid : Fin W → Bool) : Prop :=
  (w.xlat (pc.extractLsb' 12 20) .fault ∧ ∀ j, valid j = true → pf j = true) ∨
  ∃ p l, w.xlat (pc.extractLsb' 12 20) (.page p) ∧ Fill w (lineOf (phys p pc)) l ∧
    ∀ j : Fin W, (valid j = true ↔ pc.toNat % 64 / 4 + j.val < 16) ∧ pf j = false ∧
      ∀ k : Fin 16, k.val = pc.toNat % 64 / 4 + j.val → insts j = l k

/-- A cycle in which the cache waits for others: for the translation of the page of `pc`, for a transaction number
while all sixteen are used by reads that are not answered, for its read to be accepted, or for the answer to it. -/
def Excused (s : Sys) (pc : W32) (i : Cyc) : Prop :=
  match s.c.r.st with
  | .idle => i.mmu (vpnOf pc) = none ∨ ∀ t, (s.e.owed t).isSome = true
  | .swapIn => (s.e.offer.isSome = true ∧ i.acc = false) ∨
      ∃ t, s.c.r.tx = some t ∧ (s.e.owed t).isSome = true ∧ i.mResp.map (·.1) ≠ some t
  | _ => False

/-- A number of cycles in which the request for `pc` is neither answered nor withdrawn; `n` of them are not excused. -/
inductive Waits (w : World) (pc : W32) : Sys → Nat → Sys → Prop
  | nil (s) : Waits w pc s 0 s
  | excused {s n s1} (i : Cyc) : Waits w pc s n s1 → Valid w s1 i → i.kill = false → (s1.cycle i).2.resp = none →
      Excused s1 pc i → Waits w pc s n (s1.cycle i).1
  | step {s n s1} (i : Cyc) : Waits w pc s n s1 → Valid w s1 i → i.kill = false → (s1.cycle i).2.resp = none →
      ¬Excused s1 pc i → Waits w pc s (n + 1) (s1.cycle i).1

end Verif.ICache

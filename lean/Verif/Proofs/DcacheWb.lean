import Verif.Proofs.DcacheBits

/-
The write buffer of the data cache: which line it holds for an address, and how merges, evictions and
completed writes change it.
-/
namespace Verif.Dcache

theorem findIn_some {b : Wb} {X : BitVec 32} : ∀ {c j : Nat}, b.findIn X c = some j →
    j < c ∧ (b.at j).addr = X ∧ ∀ j', j < j' → j' < c → (b.at j').addr ≠ X
  | 0, j, h => by cases h
  | c + 1, j, h => by
    unfold Wb.findIn at h
    split at h
    · next hc => injection h with h; subst h; exact ⟨Nat.lt_succ_self _, hc, fun j' h1 h2 => by omega⟩
    · next hc =>
      obtain ⟨h1, h2, h3⟩ := findIn_some h
      refine ⟨by omega, h2, fun j' h4 h5 => ?_⟩
      by_cases e : j' = c
      · subst e; exact hc
      · exact h3 j' h4 (by omega)

theorem findIn_none {b : Wb} {X : BitVec 32} : ∀ {c : Nat}, b.findIn X c = none → ∀ j, j < c → (b.at j).addr ≠ X
  | 0, _, j, hj => by omega
  | c + 1, h, j, hj => by
    unfold Wb.findIn at h
    split at h
    · cases h
    · next hc =>
      by_cases e : j = c
      · subst e; exact hc
      · exact findIn_none h j (by omega)

theorem findIn_eq_none {b : Wb} {X : BitVec 32} {c : Nat} (h : ∀ j, j < c → (b.at j).addr ≠ X) : b.findIn X c = none := by
  cases e : b.findIn X c with
  | none => rfl
  | some j => obtain ⟨h1, h2, _⟩ := findIn_some e; exact absurd h2 (h j h1)

theorem findIn_congr {b b' : Wb} (X : BitVec 32) (h : ∀ j, (b'.at j).addr = (b.at j).addr) : ∀ c, b'.findIn X c = b.findIn X c
  | 0 => rfl
  | c + 1 => by unfold Wb.findIn; rw [h c, findIn_congr X h c]

/-- The line the write buffer holds for a line address. -/
def Wb.line (b : Wb) (X : BitVec 32) : Option Line := (b.findIn X b.count).map fun c => (b.at c).data

theorem find_eq (b : Wb) (a : BitVec 32) : b.find a = b.findIn (lineOf a) b.count := by unfold Wb.find; rw [lineMask_eq]

theorem bypass_eq (b : Wb) (a : BitVec 32) : b.bypass a = (b.line (lineOf a)).map fun l => l (wordOf a) := by
  unfold Wb.bypass Wb.line
  rw [find_eq, Option.map_map]
  rfl

/-- Same addresses, positions and status. -/
def Wb.Same (b b' : Wb) : Prop :=
  b'.head = b.head ∧ b'.count = b.count ∧ b'.send = b.send ∧ ∀ i, (b'.ent i).addr = (b.ent i).addr

theorem Wb.Same.refl (b : Wb) : Wb.Same b b := ⟨rfl, rfl, rfl, fun _ => rfl⟩
theorem Wb.Same.trans {a b c : Wb} (h : Wb.Same a b) (h' : Wb.Same b c) : Wb.Same a c :=
  ⟨h'.1.trans h.1, h'.2.1.trans h.2.1, h'.2.2.1.trans h.2.2.1, fun i => (h'.2.2.2 i).trans (h.2.2.2 i)⟩

theorem Wb.Same.at {b b' : Wb} (h : Wb.Same b b') (j : Nat) : (b'.at j).addr = (b.at j).addr := by
  unfold Wb.at; rw [h.1]; exact h.2.2.2 _

theorem Wb.Same.findIn {b b' : Wb} (h : Wb.Same b b') (X : BitVec 32) (c : Nat) : b'.findIn X c = b.findIn X c :=
  findIn_congr X h.at c

theorem Wb.Same.find {b b' : Wb} (h : Wb.Same b b') (a : BitVec 32) : b'.find a = b.find a := by
  unfold Wb.find; rw [h.2.1, h.findIn]

theorem merge_same (b : Wb) (r : St) : Wb.Same b (b.merge r).1 := by
  unfold Wb.merge
  split
  · exact Wb.Same.refl b
  · split
    · exact Wb.Same.refl b
    · refine ⟨rfl, rfl, rfl, fun i => ?_⟩
      dsimp only [upd]
      split
      · next h => subst h; rfl
      · rfl

theorem merge_answer {b b' : Wb} (h : Wb.Same b b') (r : St) : (b'.merge r).2 = (b.merge r).2 := by
  unfold Wb.merge
  rw [h.find]
  cases b.find r.addr with
  | none => rfl
  | some c =>
    dsimp only
    rw [h.1, h.2.1, h.2.2.1]
    split <;> rfl

theorem mod_inj {h c c' : Nat} (hc : c < wbN) (hc' : c' < wbN) (he : (h + c) % wbN = (h + c') % wbN) : c = c' := by
  unfold wbN at *; omega

/-- A merge: answered `done` exactly if the line is in the buffer and not under way; then the store is
written into that line. -/
theorem merge_line (b : Wb) (hcnt : b.count ≤ wbN) (r : St) (X : BitVec 32) :
    (b.merge r).1.line X = if lineOf r.addr = X ∧ (b.merge r).2 = .done then (b.line X).map (·.put r) else b.line X := by
  have hs := merge_same b r
  unfold Wb.line
  rw [hs.2.1, hs.findIn]
  unfold Wb.merge
  rw [find_eq]
  cases e : b.findIn (lineOf r.addr) b.count with
  | none => simp
  | some c =>
    dsimp only
    obtain ⟨hc1, hc2, hc3⟩ := findIn_some e
    split
    · simp
    · cases e2 : b.findIn X b.count with
      | none => simp
      | some c' =>
        obtain ⟨hc1', hc2', hc3'⟩ := findIn_some e2
        by_cases hX : lineOf r.addr = X
        · subst hX
          rw [e] at e2
          injection e2 with e2; subst e2
          simp only [Option.map_some, and_self, if_true, Wb.at, upd]
          rfl
        · have hne : (b.head + c') % wbN ≠ (b.head + c) % wbN := by
            intro he
            have := mod_inj (by omega) (by omega) he
            subst this
            exact hX (hc2.symm.trans hc2')
          simp only [Option.map_some, hX, false_and, if_false, Wb.at, upd, if_neg hne]

theorem merge_no_iff (b : Wb) (r : St) : (b.merge r).2 = .no ↔ b.line (lineOf r.addr) = none := by
  unfold Wb.merge Wb.line
  rw [find_eq]
  cases b.findIn (lineOf r.addr) b.count with
  | none => simp
  | some c => dsimp only; split <;> simp

/-- The stores of a list that the write buffer takes, for one line. -/
def mergedIn (b : Wb) (X : BitVec 32) (xs : List (St × Bool)) : List St :=
  xs.filterMap fun x => if x.2 = false ∧ lineOf x.1.addr = X ∧ (b.merge x.1).2 = .done then some x.1 else none

theorem mergeAll_same : ∀ (xs : List (St × Bool)) (b : Wb), Wb.Same b (mergeAll b xs).1
  | [], b => Wb.Same.refl b
  | (r, rp) :: xs, b => by
    unfold mergeAll
    dsimp only
    cases rp
    · exact (merge_same b r).trans (mergeAll_same xs _)
    · exact mergeAll_same xs b

/-- The answers do not depend on earlier merges of the cycle. -/
theorem mergeAll_answers : ∀ (xs : List (St × Bool)) (b b0 : Wb), Wb.Same b0 b →
    (mergeAll b xs).2 = xs.map fun x => if x.2 then Merge.no else (b0.merge x.1).2
  | [], _, _, _ => rfl
  | (r, rp) :: xs, b, b0, h => by
    unfold mergeAll
    dsimp only
    cases rp
    · simp only [Bool.false_eq_true, if_false, List.map_cons]
      rw [mergeAll_answers xs _ b0 (h.trans (merge_same b r)), merge_answer h]
    · simp only [if_true, List.map_cons]
      rw [mergeAll_answers xs _ b0 h]

theorem map_fold {α β : Type} (f : α → β → α) (o : Option α) (xs ys : List β) :
    (o.map fun l => xs.foldl f l).map (fun l => ys.foldl f l) = o.map fun l => (xs ++ ys).foldl f l := by
  cases o with
  | none => rfl
  | some a => simp

theorem mergeAll_line : ∀ (xs : List (St × Bool)) (b b0 : Wb), Wb.Same b0 b → b.count ≤ wbN → ∀ X,
    (mergeAll b xs).1.line X = (b.line X).map fun l => (mergedIn b0 X xs).foldl Line.put l
  | [], b, b0, _, _, X => by cases h : b.line X <;> simp [mergeAll, mergedIn, h]
  | (r, rp) :: xs, b, b0, h, hc, X => by
    unfold mergeAll mergedIn
    dsimp only
    cases rp
    · simp only [Bool.false_eq_true, if_false, List.filterMap_cons, true_and]
      rw [mergeAll_line xs (b.merge r).1 b0 (h.trans (merge_same b r)) (by rw [(merge_same b r).2.1]; exact hc),
        merge_line b hc, merge_answer h]
      split
      · next hX => 
        simp only [Option.map_map]
        rfl
      · rfl
    · simp only [if_true, List.filterMap_cons]
      rw [mergeAll_line xs b b0 h hc]
      simp
      rfl

theorem findIn_congr' {b b' : Wb} (X : BitVec 32) : ∀ c, (∀ j, j < c → (b'.at j).addr = (b.at j).addr) → b'.findIn X c = b.findIn X c
  | 0, _ => rfl
  | c + 1, h => by unfold Wb.findIn; rw [h c (Nat.lt_succ_self _), findIn_congr' X c (fun j hj => h j (by omega))]

/-- A line evicted into the buffer. -/
theorem push_line {b b' : Wb} {a : BitVec 32} {l : Line} (h : b.push (some (a, l)) = some b') (X : BitVec 32) :
    b'.line X = if X = a then some l else b.line X := by
  unfold Wb.push at h
  dsimp only at h
  split at h
  · next hc =>
    injection h with h
    subst h
    have hat : ∀ j, j < b.count →
        Wb.at { ent := upd b.ent ((b.head + b.count) % wbN) { addr := a, data := l }, head := b.head, count := b.count + 1, send := b.send } j = b.at j := by
      intro j hj
      have hne : (b.head + j) % wbN ≠ (b.head + b.count) % wbN := by
        intro he; have := mod_inj (by omega) (by omega) he; omega
      simp only [Wb.at, upd, if_neg hne]
    have hlast : Wb.at { ent := upd b.ent ((b.head + b.count) % wbN) { addr := a, data := l }, head := b.head, count := b.count + 1, send := b.send } b.count = { addr := a, data := l } := by
      simp [Wb.at, upd]
    unfold Wb.line
    dsimp only
    rw [show ∀ (b : Wb) c, b.findIn X (c + 1) = if (b.at c).addr = X then some c else b.findIn X c from fun _ _ => rfl]
    rw [hlast]
    by_cases hX : X = a
    · subst hX; simp [hlast]
    · rw [if_neg (fun e => hX e.symm), if_neg hX, findIn_congr' (b := b) X b.count (fun j hj => by rw [hat j hj])]
      cases e : b.findIn X b.count with
      | none => rfl
      | some j => simp only [Option.map_some]; rw [hat j (findIn_some e).1]
  · cases h

theorem push_keeps {b b' : Wb} {d : Option (BitVec 32 × Line)} (h : b.push d = some b') :
    b'.head = b.head ∧ b'.send = b.send ∧ b.count ≤ b'.count ∧ (b'.count ≤ b.count ∨ b'.count ≤ wbN) ∧ (0 < b.count → b'.at 0 = b.at 0) := by
  unfold Wb.push at h
  cases d with
  | none => injection h with h; subst h; exact ⟨rfl, rfl, Nat.le_refl _, Or.inl (Nat.le_refl _), fun _ => rfl⟩
  | some p =>
    obtain ⟨a, l⟩ := p
    dsimp only at h
    split at h
    · next hc =>
      injection h with h
      subst h
      refine ⟨rfl, rfl, Nat.le_succ _, Or.inr hc, fun hp => ?_⟩
      have hne : (b.head + 0) % wbN ≠ (b.head + b.count) % wbN := by
        intro he; have := mod_inj (by decide) hc he; omega
      simp only [Wb.at, upd, if_neg hne]
    · cases h

/-- Completed write: the head leaves. -/
theorem pop_line {b : Wb} (X : BitVec 32) (hc : 0 < b.count) (hc2 : b.count ≤ wbN) (snd : Bool) :
    Wb.line { b with count := b.count - 1, head := (b.head + 1) % wbN, send := snd } X =
      if b.findIn X b.count = some 0 then none else b.line X := by
  have hat : ∀ j, Wb.at { b with count := b.count - 1, head := (b.head + 1) % wbN, send := snd } j = b.at (j + 1) := by
    intro j
    unfold Wb.at
    dsimp only
    congr 1
    unfold wbN; omega
  have hf : ∀ c, Wb.findIn { b with count := b.count - 1, head := (b.head + 1) % wbN, send := snd } X c =
      match b.findIn X (c + 1) with
      | some (j + 1) => some j
      | _ => none := by
    intro c
    induction c with
    | zero => by_cases h0 : (b.at 0).addr = X <;> simp [Wb.findIn, h0]
    | succ c ih =>
      rw [Wb.findIn, hat, ih]
      rw [show b.findIn X (c + 1 + 1) = if (b.at (c + 1)).addr = X then some (c + 1) else b.findIn X (c + 1) from rfl]
      split
      · rfl
      · rfl
  unfold Wb.line
  dsimp only
  rw [hf, Nat.sub_add_cancel hc]
  cases e : b.findIn X b.count with
  | none => simp
  | some j =>
    cases j with
    | zero => simp
    | succ j => simp only [Option.map_some, hat]; simp

end Verif.Dcache

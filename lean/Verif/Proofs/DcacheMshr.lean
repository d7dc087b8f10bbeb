import Verif.Proofs.DcacheBits

/-
The miss registers of the data cache: allocation, merging of stores, completion.
-/
namespace Verif.Dcache

theorem countP_set {p : Nat → Bool} {n j : Nat} (hj : j < n) (hp : p j = false) :
    (List.range n).countP (fun i => if i = j then true else p i) = (List.range n).countP p + 1 := by
  induction n with
  | zero => omega
  | succ n ih =>
    rw [List.range_succ, List.countP_append, List.countP_append, List.countP_singleton, List.countP_singleton]
    by_cases e : j = n
    · subst e
      have : (List.range j).countP (fun i => if i = j then true else p i) = (List.range j).countP p :=
        List.countP_congr (fun i hi => by rw [List.mem_range] at hi; rw [if_neg (by omega)])
      rw [this, hp]; simp
    · have e' : ¬ n = j := fun h => e h.symm
      simp only [ih (by omega), e', if_false]; omega

theorem countP_clear {p : Nat → Bool} {n j : Nat} (hj : j < n) (hp : p j = true) :
    (List.range n).countP (fun i => if i = j then false else p i) + 1 = (List.range n).countP p := by
  have := countP_set (p := fun i => if i = j then false else p i) hj (by simp)
  rw [← this]
  apply List.countP_congr
  intro i _
  by_cases e : i = j
  · subst e; simp [hp]
  · simp [e]

theorem countP_full {p : Nat → Bool} {n : Nat} (h : ∀ j, j < n → p j = true) : (List.range n).countP p = n := by
  rw [List.countP_eq_length.mpr (fun a ha => h a (List.mem_range.mp ha)), List.length_range]

structure MInv (m : Mshr) : Prop where
  al : ∀ i, i < mshrN → (m.ent i).valid = true → lineOf (m.ent i).addr = (m.ent i).addr
  dist : ∀ i j, i < mshrN → j < mshrN → (m.ent i).valid = true → (m.ent j).valid = true → (m.ent i).addr = (m.ent j).addr → i = j
  cnt : m.count = (List.range mshrN).countP fun i => (m.ent i).valid
  clean : ∀ i, i < mshrN → (m.ent i).valid = true → (m.ent i).dirty = false → ∀ w, (m.ent i).strb w = 0#8

theorem mfind_some {m : Mshr} {X : BitVec 32} {i : Nat} (h : m.find X = some i) :
    i < mshrN ∧ (m.ent i).valid = true ∧ (m.ent i).addr = X := by
  unfold Mshr.find at h
  have h1 := List.find?_some h
  have h2 := List.mem_of_find?_eq_some h
  simp only [Bool.and_eq_true, decide_eq_true_eq] at h1
  exact ⟨List.mem_range.mp h2, h1.1, h1.2⟩

theorem mfind_none {m : Mshr} {X : BitVec 32} : m.find X = none ↔ ∀ i, i < mshrN → (m.ent i).valid = true → (m.ent i).addr ≠ X := by
  unfold Mshr.find
  rw [List.find?_eq_none]
  constructor
  · intro h i hi hv e
    exact h i (List.mem_range.mpr hi) (by simp [hv, e])
  · intro h i hi hb
    simp only [Bool.and_eq_true, decide_eq_true_eq] at hb
    exact h i (List.mem_range.mp hi) hb.1 hb.2

theorem mfind_eq {m : Mshr} (hd : MInv m) {X : BitVec 32} {i : Nat} (hi : i < mshrN) (hv : (m.ent i).valid = true)
    (ha : (m.ent i).addr = X) : m.find X = some i := by
  cases e : m.find X with
  | none => exact absurd ha (mfind_none.mp e i hi hv)
  | some j =>
    obtain ⟨h1, h2, h3⟩ := mfind_some e
    rw [hd.dist i j hi h1 hv h2 (ha.trans h3.symm)]

/-- What the merged stores of an outstanding miss make of a line. -/
def Mshr.view (m : Mshr) (X : BitVec 32) (l : Line) : Line :=
  match m.find X with
  | some i => (m.ent i).over l
  | none => l

theorem over_fresh (a : BitVec 32) (l : Line) : MEntry.over { valid := true, addr := a } l = l := by
  funext w; simp [MEntry.over]

theorem over_clean {e : MEntry} (h : ∀ w, e.strb w = 0#8) (l : Line) : e.over l = l := by
  funext w; simp [MEntry.over, h w]

def MReq.store? : MReq → Option St
  | .load _ => none
  | .store r => some r

/-- Room for a new line. -/
theorem exists_free {m : Mshr} (hm : MInv m) (h : m.count < mshrN) :
    ∃ j, (List.range mshrN).find? (fun j => !(m.ent j).valid) = some j ∧ j < mshrN ∧ (m.ent j).valid = false := by
  cases e : (List.range mshrN).find? (fun j => !(m.ent j).valid) with
  | some j =>
    have h1 := List.find?_some e
    have h2 := List.mem_range.mp (List.mem_of_find?_eq_some e)
    exact ⟨j, rfl, h2, by simpa using h1⟩
  | none =>
    rw [List.find?_eq_none] at e
    have : m.count = mshrN := by
      rw [hm.cnt]
      exact countP_full (fun j hj => by have := e j (List.mem_range.mpr hj); simpa using this)
    omega

/-- One request with room for it. -/
structure ReqStep (m m' : Mshr) (q : MReq) : Prop where
  inv : MInv m'
  hold : m'.hold = m.hold
  keep : ∀ i, i < mshrN → (m.ent i).valid = true →
    (m'.ent i).valid = true ∧ (m'.ent i).issued = (m.ent i).issued ∧ (m'.ent i).addr = (m.ent i).addr
  same : ∀ i, i < mshrN → (m.ent i).valid = true → (m.ent i).addr ≠ lineOf q.addr → m'.ent i = m.ent i
  found : (m'.find (lineOf q.addr)).isSome
  other : ∀ X, X ≠ lineOf q.addr → m'.find X = m.find X
  view : ∀ X l, m'.view X l = if X = lineOf q.addr then q.store?.toList.foldl Line.put (m.view X l) else m.view X l
  count : m'.count = m.count + if (m.find (lineOf q.addr)).isNone then 1 else 0

theorem minv_merge {m : Mshr} (hm : MInv m) {i : Nat} (_hi : i < mshrN) (hv : (m.ent i).valid = true) (r : St) :
    MInv { m with ent := upd m.ent i ((m.ent i).merge r) } := by
  have hva : ∀ j, (upd m.ent i ((m.ent i).merge r) j).valid = (m.ent j).valid ∧ (upd m.ent i ((m.ent i).merge r) j).addr = (m.ent j).addr := by
    intro j
    unfold upd
    split
    · next e => subst e; exact ⟨rfl, rfl⟩
    · exact ⟨rfl, rfl⟩
  refine ⟨?_, ?_, ?_, ?_⟩
  · intro j hj h
    dsimp only at h ⊢
    rw [(hva j).2]; exact hm.al j hj (by rw [← (hva j).1]; exact h)
  · intro j k hj hk h1 h2 h3
    dsimp only at h1 h2 h3
    rw [(hva j).1] at h1; rw [(hva k).1] at h2; rw [(hva j).2, (hva k).2] at h3
    exact hm.dist j k hj hk h1 h2 h3
  · dsimp only
    rw [hm.cnt]
    exact List.countP_congr (fun j _ => by rw [(hva j).1])
  · intro j hj h hd
    dsimp only at h hd ⊢
    by_cases e : j = i
    · subst e; simp [upd, MEntry.merge] at hd
    · simp only [upd, if_neg e] at h hd ⊢; exact hm.clean j hj h hd

theorem merge_step {m : Mshr} (hm : MInv m) {i : Nat} (hi : i < mshrN) (hv : (m.ent i).valid = true) (r : St) (ha : (m.ent i).addr = lineOf r.addr) :
    ReqStep m { m with ent := upd m.ent i ((m.ent i).merge r) } (.store r) := by
  have hinv := minv_merge hm hi hv r
  have hfi : m.find (lineOf r.addr) = some i := mfind_eq hm hi hv ha
  have hva : ∀ j, (upd m.ent i ((m.ent i).merge r) j).valid = (m.ent j).valid ∧ (upd m.ent i ((m.ent i).merge r) j).addr = (m.ent j).addr ∧
      (upd m.ent i ((m.ent i).merge r) j).issued = (m.ent j).issued := by
    intro j
    unfold upd
    split
    · next e => subst e; exact ⟨rfl, rfl, rfl⟩
    · exact ⟨rfl, rfl, rfl⟩
  have hfind : ∀ X, Mshr.find { m with ent := upd m.ent i ((m.ent i).merge r) } X = m.find X := by
    intro X
    unfold Mshr.find
    dsimp only
    congr 1
    funext j
    rw [(hva j).1, (hva j).2.1]
  refine ⟨hinv, rfl, ?_, ?_, ?_, ?_, ?_, ?_⟩
  · intro j _ h; exact ⟨by rw [← h]; exact (hva j).1, (hva j).2.2, (hva j).2.1⟩
  · intro j _ _ hne
    have : j ≠ i := by intro e; subst e; exact hne ha
    simp only [upd, if_neg this]
  · show (Mshr.find _ (lineOf r.addr)).isSome
    rw [hfind, hfi]; rfl
  · intro X _; exact hfind X
  · intro X l
    unfold Mshr.view
    rw [hfind]
    show _ = if X = lineOf r.addr then (match m.find X with | some i => (m.ent i).over l | none => l).put r else _
    by_cases hX : X = lineOf r.addr
    · subst hX
      rw [hfi, if_pos rfl]
      simp only [upd, if_true]
      exact over_merge _ _ _
    · rw [if_neg hX]
      cases e : m.find X with
      | none => rfl
      | some j =>
        have : j ≠ i := by
          intro h; subst h
          exact hX ((mfind_some e).2.2.symm.trans ha)
        simp only [upd, if_neg this]
  · show m.count = m.count + if (m.find (lineOf r.addr)).isNone then 1 else 0
    rw [hfi]; rfl

theorem alloc_step {m : Mshr} (hm : MInv m) {j : Nat} (hj : j < mshrN) (hv : (m.ent j).valid = false) (a : BitVec 32)
    (hf : m.find (lineOf a) = none) :
    ReqStep m { m with ent := upd m.ent j { valid := true, addr := lineOf a }, count := m.count + 1 } (.load a) := by
  have hne : ∀ i, (m.ent i).valid = true → i ≠ j := by intro i h e; subst e; rw [hv] at h; cases h
  have hinv : MInv { m with ent := upd m.ent j { valid := true, addr := lineOf a }, count := m.count + 1 } := by
    refine ⟨?_, ?_, ?_, ?_⟩
    · intro i hi h
      dsimp only at h ⊢
      by_cases e : i = j
      · subst e; simp only [upd, if_true]; exact lineOf_idem a
      · simp only [upd, if_neg e] at h ⊢; exact hm.al i hi h
    · intro i k hi hk h1 h2 h3
      dsimp only at h1 h2 h3
      by_cases e : i = j
      · by_cases e' : k = j
        · rw [e, e']
        · exfalso
          subst e
          simp only [upd, if_true, if_neg e'] at h2 h3
          exact mfind_none.mp hf k hk h2 h3.symm
      · by_cases e' : k = j
        · exfalso
          subst e'
          simp only [upd, if_true, if_neg e] at h1 h3
          exact mfind_none.mp hf i hi h1 h3
        · simp only [upd, if_neg e, if_neg e'] at h1 h2 h3
          exact hm.dist i k hi hk h1 h2 h3
    · dsimp only
      rw [hm.cnt, ← countP_set (p := fun i => (m.ent i).valid) hj hv]
      exact List.countP_congr (fun i _ => by by_cases e : i = j <;> simp [upd, e])
    · intro i hi h hd
      dsimp only at h hd ⊢
      by_cases e : i = j
      · subst e; simp [upd]
      · simp only [upd, if_neg e] at h hd ⊢; exact hm.clean i hi h hd
  have hfj : Mshr.find { m with ent := upd m.ent j { valid := true, addr := lineOf a }, count := m.count + 1 } (lineOf a) = some j :=
    mfind_eq hinv hj (by simp [upd]) (by simp [upd])
  have hfo : ∀ X, X ≠ lineOf a → Mshr.find { m with ent := upd m.ent j { valid := true, addr := lineOf a }, count := m.count + 1 } X = m.find X := by
    intro X hX
    cases e : m.find X with
    | some i =>
      obtain ⟨h1, h2, h3⟩ := mfind_some e
      have := hne i h2
      exact mfind_eq hinv h1 (by simp [upd, this, h2]) (by simp [upd, this, h3])
    | none =>
      rw [mfind_none] at e ⊢
      intro i hi h
      dsimp only at h ⊢
      by_cases e' : i = j
      · subst e'; simp only [upd, if_true]; exact fun e => hX e.symm
      · simp only [upd, if_neg e'] at h ⊢; exact e i hi h
  refine ⟨hinv, rfl, ?_, ?_, ?_, hfo, ?_, ?_⟩
  · intro i _ h; simp [upd, hne i h, h]
  · intro i _ h _; simp [upd, hne i h]
  · show (Mshr.find _ (lineOf a)).isSome
    rw [hfj]; rfl
  · intro X l
    show _ = if X = lineOf a then m.view X l else m.view X l
    rw [ite_self]
    unfold Mshr.view
    by_cases hX : X = lineOf a
    · subst hX
      rw [hfj, hf]
      simp only [upd, if_true]
      exact over_fresh _ _
    · rw [hfo X hX]
      cases e : m.find X with
      | none => rfl
      | some i => simp only [upd, if_neg (hne i (mfind_some e).2.1)]
  · show m.count + 1 = m.count + if (m.find (lineOf a)).isNone then 1 else 0
    rw [hf]; rfl

theorem ReqStep.comp {m m1 m2 : Mshr} {r : St} (h1 : ReqStep m m1 (.load r.addr)) (h2 : ReqStep m1 m2 (.store r)) :
    ReqStep m m2 (.store r) := by
  refine ⟨h2.inv, h2.hold.trans h1.hold, ?_, ?_, h2.found, ?_, ?_, ?_⟩
  · intro i hi h
    obtain ⟨a, b, c⟩ := h1.keep i hi h
    obtain ⟨a', b', c'⟩ := h2.keep i hi a
    exact ⟨a', b'.trans b, c'.trans c⟩
  · intro i hi h hne
    have e1 := h1.same i hi h hne
    rw [h2.same i hi (by rw [e1]; exact h) (by rw [e1]; exact hne), e1]
  · intro X hX; rw [h2.other X hX, h1.other X hX]
  · intro X l
    rw [h2.view, h1.view]
    show (if X = lineOf r.addr then _ else _) = if X = lineOf r.addr then _ else _
    split
    · next hX => rw [if_pos (show X = lineOf (MReq.load r.addr).addr from hX)]; rfl
    · next hX => rw [if_neg (show ¬ X = lineOf (MReq.load r.addr).addr from hX)]
  · rw [h2.count, h1.count]
    have : (m1.find (lineOf (MReq.store r).addr)).isNone = false := by
      have := h1.found
      rw [show lineOf (MReq.store r).addr = lineOf (MReq.load r.addr).addr from rfl]
      cases e : m1.find (lineOf (MReq.load r.addr).addr) with
      | none => rw [e] at this; cases this
      | some _ => rfl
    rw [this]; rfl

theorem request_step {m : Mshr} (hm : MInv m) (q : MReq) (hroom : (m.find (lineOf q.addr)).isNone = true → m.count < mshrN) :
    ReqStep m (m.request q) q := by
  unfold Mshr.request
  dsimp only
  cases e : m.find (lineOf q.addr) with
  | some i =>
    dsimp only
    obtain ⟨h1, h2, h3⟩ := mfind_some e
    cases q with
    | load a =>
      refine ⟨hm, rfl, fun _ _ h => ⟨h, rfl, rfl⟩, fun _ _ _ _ => rfl, by rw [e]; rfl, fun _ _ => rfl, fun X l => ?_, by rw [e]; rfl⟩
      show _ = if _ then m.view X l else _
      rw [ite_self]
    | store r => exact merge_step hm h1 h2 r h3
  | none =>
    obtain ⟨j, hj1, hj2, hj3⟩ := exists_free hm (hroom (by rw [e]; rfl))
    dsimp only
    rw [hj1]
    have ha := alloc_step hm hj2 hj3 q.addr e
    cases q with
    | load a => exact ha
    | store r =>
      dsimp only
      refine ReqStep.comp ha ?_
      exact merge_step ha.inv hj2 (by simp [upd]) r (by simp [upd, MReq.addr])

/-- New lines asked for. -/
def need (m : Mshr) (qs : List MReq) : Nat := qs.countP fun q => (m.find (lineOf q.addr)).isNone

/-- The requests of one cycle. -/
structure ReqsStep (m m' : Mshr) (qs : List MReq) : Prop where
  inv : MInv m'
  hold : m'.hold = m.hold
  keep : ∀ i, i < mshrN → (m.ent i).valid = true →
    (m'.ent i).valid = true ∧ (m'.ent i).issued = (m.ent i).issued ∧ (m'.ent i).addr = (m.ent i).addr
  same : ∀ i, i < mshrN → (m.ent i).valid = true → (∀ q ∈ qs, (m.ent i).addr ≠ lineOf q.addr) → m'.ent i = m.ent i
  found : ∀ q ∈ qs, (m'.find (lineOf q.addr)).isSome
  other : ∀ X, (∀ q ∈ qs, X ≠ lineOf q.addr) → m'.find X = m.find X
  view : ∀ X l, m'.view X l = (qs.filterMap fun q => if lineOf q.addr = X then q.store? else none).foldl Line.put (m.view X l)

theorem requests_step : ∀ (qs : List MReq) {m : Mshr}, MInv m → m.count + need m qs ≤ mshrN → ReqsStep m (qs.foldl Mshr.request m) qs
  | [], m, hm, _ =>
    ⟨hm, rfl, fun _ _ h => ⟨h, rfl, rfl⟩, fun _ _ _ _ => rfl, fun _ h => (by cases h), fun _ _ => rfl, fun _ _ => rfl⟩
  | q :: qs, m, hm, hn => by
    have hneed : need m (q :: qs) = need m qs + if (m.find (lineOf q.addr)).isNone then 1 else 0 := by
      unfold need; rw [List.countP_cons]
    have h1 := request_step hm q (by intro h; rw [hneed, if_pos h] at hn; omega)
    have hle : need (m.request q) qs ≤ need m qs := by
      unfold need
      apply List.countP_mono_left
      intro q' _ h
      by_cases e : lineOf q'.addr = lineOf q.addr
      · have := h1.found; rw [e] at h; cases e2 : (m.request q).find (lineOf q.addr) <;> rw [e2] at this h <;> simp at this h
      · rw [h1.other _ e] at h; exact h
    have h2 := requests_step qs h1.inv (by rw [h1.count]; omega)
    rw [List.foldl_cons]
    refine ⟨h2.inv, h2.hold.trans h1.hold, ?_, ?_, ?_, ?_, ?_⟩
    · intro i hi h
      obtain ⟨a, b, c⟩ := h1.keep i hi h
      obtain ⟨a', b', c'⟩ := h2.keep i hi a
      exact ⟨a', b'.trans b, c'.trans c⟩
    · intro i hi h hne
      have e1 := h1.same i hi h (hne q List.mem_cons_self)
      rw [h2.same i hi (by rw [e1]; exact h) (by rw [e1]; exact fun q' hq' => hne q' (List.mem_cons_of_mem _ hq')), e1]
    · intro q' hq'
      rcases List.mem_cons.mp hq' with e | e
      · subst e
        by_cases hex : ∃ q2 ∈ qs, lineOf q'.addr = lineOf q2.addr
        · obtain ⟨q2, hq2, e2⟩ := hex
          rw [e2]; exact h2.found q2 hq2
        · rw [h2.other _ (fun q2 hq2 e2 => hex ⟨q2, hq2, e2⟩)]; exact h1.found
      · exact h2.found q' e
    · intro X hX
      rw [h2.other X (fun q' hq' => hX q' (List.mem_cons_of_mem _ hq')), h1.other X (hX q List.mem_cons_self)]
    · intro X l
      rw [h2.view, h1.view, List.filterMap_cons]
      by_cases hX : X = lineOf q.addr
      · rw [if_pos hX, if_pos hX.symm]
        cases q.store? with
        | none => rfl
        | some r => rfl
      · rw [if_neg hX, if_neg (fun e => hX e.symm)]

/-- Completion of a fill. -/
theorem done_inv {m : Mshr} (hm : MInv m) {i : Nat} {l : Line} (hi : i < mshrN) (hh : m.hold = some (i, l))
    (hv : (m.ent i).valid = true) (hs : (m.ent i).issued = true) :
    MInv (m.done i) ∧ (m.done i).hold = none ∧ (m.done i).count + 1 = m.count ∧
      (∀ j, j ≠ i → (m.done i).ent j = m.ent j) ∧ ((m.done i).ent i).valid = false := by
  have he : m.done i = { ent := upd m.ent i { valid := false, issued := false, addr := (m.ent i).addr }, count := m.count - 1, hold := none } := by
    unfold Mshr.done; rw [hh]; dsimp only; rw [if_pos ⟨hi, rfl, hv, hs⟩]
  rw [he]
  have hcp := countP_clear (p := fun j => (m.ent j).valid) hi hv
  have hcp2 : (List.range mshrN).countP (fun j => (upd m.ent i { valid := false, issued := false, addr := (m.ent i).addr } j).valid) =
      (List.range mshrN).countP (fun j => if j = i then false else (m.ent j).valid) :=
    List.countP_congr (fun j _ => by by_cases e : j = i <;> simp [upd, e])
  have hne : ∀ j, (upd m.ent i { valid := false, issued := false, addr := (m.ent i).addr } j).valid = true → j ≠ i := by
    intro j h e; subst e; simp [upd] at h
  refine ⟨⟨?_, ?_, ?_, ?_⟩, rfl, ?_, ?_, ?_⟩
  · intro j hj h
    have := hne j h
    simp only [upd, if_neg this] at h ⊢
    exact hm.al j hj h
  · intro j k hj hk h1 h2 h3
    have e1 := hne j h1
    have e2 := hne k h2
    simp only [upd, if_neg e1, if_neg e2] at h1 h2 h3
    exact hm.dist j k hj hk h1 h2 h3
  · dsimp only
    rw [hcp2]
    rw [hm.cnt, ← hcp]; rfl
  · intro j hj h
    have := hne j h
    simp only [upd, if_neg this] at h ⊢
    exact hm.clean j hj h
  · dsimp only
    rw [hm.cnt, ← hcp]; rfl
  · intro j hj; simp [upd, hj]
  · simp [upd]

end Verif.Dcache

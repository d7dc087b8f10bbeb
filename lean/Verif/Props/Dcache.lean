import Verif.Proofs.DcacheFlat

/-
Properties of the level-1 data cache: C57 (answers), C58 (load values), C59 (nothing is lost), C60
(one copy per line), C61 (replacement), C62 (banks).
-/
namespace Verif.Props

open Verif.Dcache Verif.Spec.ByteMem Verif.Spec.CacheMem

/-! ## An observer at the processor's side

The observer sees the requests and the answers and keeps: the memory `M` that the answers handed out so far
describe, and the requests not yet answered. -/

/-- A processor cycle. -/
def isSlow : Ev → Bool
  | .tick slow _ _ _ _ => slow
  | _ => false

inductive Run (mem : BitVec 32 → Line) : Sys → Mem → List Ld → List St → Prop
  | init : Run mem (Sys.init mem) (flat mem) [] []
  /-- anything but a processor cycle -/
  | quiet {s s' : Sys} {M : Mem} {ld : List Ld} {st : List St} {o : Output} (e : Ev) (hq : isSlow e = false) :
      Run mem s M ld st → s.Valid e → s.step e = some (s', o) → Run mem s' M ld st
  /-- a processor cycle: the answers `o` are handed out and the requests `ld'`, `st'` taken -/
  | cycle {s s' : Sys} {M : Mem} {ld : List Ld} {st : List St} {o : Output} (ld' : List Ld) (st' : List St) (resp : Option Nat) (ack : Bool) :
      Run mem s M ld st → s.Valid (.tick true ld' st' resp ack) → s.step (.tick true ld' st' resp ack) = some (s', o) →
      Run mem s' (after M o.stores) ld' st'

theorem step_j {s : Sys} {B : BitVec 32 → Line} {ld : List Ld} {st : List St} (h : J s B ld st) (e : Ev) (hq : isSlow e = false) (hv : s.Valid e) :
    ∃ s' o, s.step e = some (s', o) ∧ o.loads = [] ∧ o.stores = [] ∧ J s' B ld st := by
  cases e with
  | rdTake => obtain ⟨s', h1, h2⟩ := keep_rdTake h.inv hv; exact ⟨s', {}, h1, rfl, rfl, h2.j h⟩
  | rdRead i => obtain ⟨s', h1, h2⟩ := keep_rdRead h.inv hv; exact ⟨s', {}, h1, rfl, rfl, h2.j h⟩
  | wrTake => obtain ⟨s', h1, h2⟩ := keep_wrTake h.inv hv; exact ⟨s', {}, h1, rfl, rfl, h2.j h⟩
  | wrWrite => obtain ⟨s', h1, h2⟩ := keep_wrWrite h.inv hv; exact ⟨s', {}, h1, rfl, rfl, h2.j h⟩
  | tick slow ld' st' resp ack =>
    obtain ⟨s', o, h1, h2, _⟩ := tick_j h hv
    have hs : slow = false := hq
    obtain ⟨a, b, c⟩ := h2 hs
    exact ⟨s', o, h1, a, b, c⟩

theorem run_j {mem : BitVec 32 → Line} {s : Sys} {M : Mem} {ld : List Ld} {st : List St} (h : Run mem s M ld st) :
    ∃ B, M = flat B ∧ J s B ld st := by
  induction h with
  | init => exact ⟨mem, rfl, init_j mem⟩
  | quiet e hq _ hv hs ih =>
    obtain ⟨B, hM, hJ⟩ := ih
    obtain ⟨s2, o2, h1, _, _, h2⟩ := step_j hJ e hq hv
    rw [hs] at h1
    injection h1 with h1
    injection h1 with h1 _
    subst h1
    exact ⟨B, hM, h2⟩
  | cycle ld' st' resp ack _ hv hs ih =>
    obtain ⟨B, hM, hJ⟩ := ih
    obtain ⟨s2, o2, h1, _, h2⟩ := tick_j hJ hv
    rw [hs] at h1
    injection h1 with h1
    injection h1 with h1 ho
    subst h1
    subst ho
    obtain ⟨_, _, _, h3⟩ := h2 rfl
    exact ⟨_, by rw [hM, flat_after], h3⟩

/-! ## C57: answers -/

/-- **C57.** Every load and every store handed to the data cache in a processor cycle is answered in the next
one, exactly once, in order and with its own address and identification; between processor cycles nothing is
answered. -/
theorem C57_answers {mem : BitVec 32 → Line} {s s' : Sys} {M : Mem} {ld : List Ld} {st : List St} (h : Run mem s M ld st)
    {e : Ev} {o : Output} (hv : s.Valid e) (hs : s.step e = some (s', o)) :
    (isSlow e = true → o.loads.map (·.req) = ld ∧ o.stores.map (·.req) = st) ∧ (isSlow e = false → o.loads = [] ∧ o.stores = []) := by
  obtain ⟨B, _, hJ⟩ := run_j h
  constructor
  · intro he
    cases e with
    | tick slow ld' st' resp ack =>
      obtain ⟨s2, o2, h1, _, h2⟩ := tick_j hJ hv
      rw [hs] at h1
      injection h1 with h1
      injection h1 with h1 ho
      subst ho
      exact ⟨(h2 he).1, (h2 he).2.1⟩
    | _ => cases he
  · intro he
    obtain ⟨s2, o2, h1, a, b, _⟩ := step_j hJ e he hv
    rw [hs] at h1
    injection h1 with h1
    injection h1 with h1 ho
    subst ho
    exact ⟨a, b⟩

/-- **C57.** Whatever the interconnect does within its rules, no assertion of the data cache, the MSHRs or the
write buffer fails: there is a next state. -/
theorem C57_no_assertion {mem : BitVec 32 → Line} {s : Sys} {M : Mem} {ld : List Ld} {st : List St} (h : Run mem s M ld st)
    {e : Ev} (hv : s.Valid e) : s.step e ≠ none := by
  obtain ⟨B, _, hJ⟩ := run_j h
  cases hq : isSlow e with
  | false =>
    obtain ⟨s2, o2, h1, _⟩ := step_j hJ e hq hv
    rw [h1]; simp
  | true =>
    cases e with
    | tick slow ld' st' resp ack =>
      obtain ⟨s2, o2, h1, _⟩ := tick_j hJ hv
      rw [h1]; simp
    | _ => cases hq

/-! ## C58: load values -/

/-- **C58 (partial).** A load answered with a hit returns the word that memory holds after all stores answered
with a hit in earlier cycles and the first `n` stores of its own cycle, for some `n`.  (In particular exactly
the earlier memory if no store of the same cycle is to that word.)  Missing: loads answered out of a line
being filled that has already taken in a store (`late`); for those it is false, see `C58_stale_load`. -/
theorem C58_load_value_partial {mem : BitVec 32 → Line} {s s' : Sys} {M : Mem} {ld : List Ld} {st : List St} (h : Run mem s M ld st)
    {ld' : List Ld} {st' : List St} {resp : Option Nat} {ack : Bool} {o : Output} (hv : s.Valid (.tick true ld' st' resp ack))
    (hs : s.step (.tick true ld' st' resp ack) = some (s', o)) {r : LdResp} (hr : r ∈ o.loads) (hh : r.replay = .hit) (hl : r.late = false) :
    ∃ n, r.data = word (after M (o.stores.take n)) r.req.addr := by
  obtain ⟨B, hM, hJ⟩ := run_j h
  obtain ⟨s2, o2, h1, _, h2⟩ := tick_j hJ hv
  rw [hs] at h1
  injection h1 with h1
  injection h1 with h1 ho
  subst ho
  obtain ⟨T, t1, t2⟩ := (h2 rfl).2.2.1 r hr hh hl
  obtain ⟨n, hn⟩ := prefix_take _ _ _ t1
  refine ⟨n, ?_⟩
  rw [hM, flat_after, flat_word, t2, hn]
  rfl

/-! ## C59: nothing is lost -/

/-- Is the line of the address in a dirty way, in the write buffer, or an outstanding miss? -/
def heldBack (s : State) (p : BitVec 32) : Prop :=
  (∃ k, k < ways ∧ s.arr.valid (setOf p) k = true ∧ s.arr.tag (setOf p) k = tagOf p ∧ s.arr.dirty (setOf p) k = true) ∨
  (∃ c, c < s.wb.count ∧ (s.wb.at c).addr = lineOf p) ∨
  (∃ i, i < mshrN ∧ (s.m.ent i).valid = true ∧ (s.m.ent i).addr = lineOf p)

/-- **C59.** After every event the memory behind the cache holds, for each byte whose line is not held back by
the cache, the value described by the stores answered so far (those of the present batch, not yet handed out,
included). -/
theorem C59_memory {mem : BitVec 32 → Line} {s : Sys} {M : Mem} {ld : List Ld} {st : List St} (h : Run mem s M ld st)
    (p : BitVec 32) (hn : ¬ heldBack s.d p) : flat s.mem p = after M s.d.pendSt p := by
  obtain ⟨B, hM, hJ⟩ := run_j h
  rw [hM, flat_after, flat_eq, flat_eq]
  have hview := hJ.view (lineOf p) (lineOf_idem p)
  have hres : s.d.view s.mem (lineOf p) = s.mem (lineOf p) := by
    unfold State.view
    rw [set_lineOf, tag_lineOf]
    cases hk : hitWay s.d.arr (setOf p) (tagOf p) with
    | some k =>
      obtain ⟨k1, k2, k3⟩ := hitWay_some hk
      dsimp only
      cases hd : s.d.arr.dirty (setOf p) k with
      | true => exact absurd (Or.inl ⟨k, k1, k2, k3, hd⟩) hn
      | false => rw [hJ.inv.clean _ _ k1 k2 hd, k3]; rfl
    | none =>
      dsimp only
      cases hw : s.d.wb.line (lineOf p) with
      | some l =>
        exfalso
        unfold Wb.line at hw
        obtain ⟨c, hc, _⟩ := Option.map_eq_some_iff.mp hw
        obtain ⟨c1, c2, _⟩ := findIn_some hc
        exact hn (Or.inr (Or.inl ⟨c, c1, c2⟩))
      | none =>
        dsimp only
        have hm : s.d.m.find (lineOf p) = none := by
          rw [mfind_none]; intro i hi hv ha; exact hn (Or.inr (Or.inr ⟨i, hi, hv, ha⟩))
        rw [mview_none hm]
        cases hf : s.d.fill with
        | none => rfl
        | some f =>
          dsimp only
          rw [if_neg]
          intro hc
          obtain ⟨i, l, _, g, _⟩ := hJ.inv.ex.holdFind (fill_hold hJ.inv hf)
          rw [hc, hm] at g; cases g
  unfold applyHits
  rw [← hview, hres]

/-- **C59.** Once the cache holds nothing back, the memory is exactly the one the answers describe. -/
theorem C59_drained {mem : BitVec 32 → Line} {s : Sys} {M : Mem} {ld : List Ld} {st : List St} (h : Run mem s M ld st)
    (hp : s.d.pendSt = []) (hd : ∀ p, ¬ heldBack s.d p) : flat s.mem = M := by
  funext p
  rw [C59_memory h p (hd p), hp]
  rfl

/-! ## C60: one copy -/

/-- **C60.** A line is in at most one way of its set; a line in the arrays is neither in the write buffer nor
an outstanding miss; an outstanding miss is not in the write buffer and is outstanding once. -/
theorem C60_one_copy {mem : BitVec 32 → Line} {s : Sys} {M : Mem} {ld : List Ld} {st : List St} (h : Run mem s M ld st) :
    (∀ set k k', k < ways → k' < ways → s.d.arr.valid set k = true → s.d.arr.valid set k' = true →
      s.d.arr.tag set k = s.d.arr.tag set k' → k = k') ∧
    (∀ set k, k < ways → s.d.arr.valid set k = true →
      (∀ c, c < s.d.wb.count → (s.d.wb.at c).addr ≠ getAddr set (s.d.arr.tag set k)) ∧
      (∀ i, i < mshrN → (s.d.m.ent i).valid = true → (s.d.m.ent i).addr ≠ getAddr set (s.d.arr.tag set k))) ∧
    (∀ i, i < mshrN → (s.d.m.ent i).valid = true → ∀ c, c < s.d.wb.count → (s.d.wb.at c).addr ≠ (s.d.m.ent i).addr) ∧
    (∀ i j, i < mshrN → j < mshrN → (s.d.m.ent i).valid = true → (s.d.m.ent j).valid = true → (s.d.m.ent i).addr = (s.d.m.ent j).addr → i = j) := by
  obtain ⟨B, _, hJ⟩ := run_j h
  have hx := hJ.inv.ex
  have hwb : ∀ X, s.d.wb.line X = none → ∀ c, c < s.d.wb.count → (s.d.wb.at c).addr ≠ X := by
    intro X hX
    unfold Wb.line at hX
    exact findIn_none (Option.map_eq_none_iff.mp hX)
  refine ⟨hx.arr, ?_, ?_, hx.m.dist⟩
  · intro set k hk hv
    have := hx.cw (getAddr set (s.d.arr.tag set k)) k (by rw [set_getAddr, tag_getAddr]; exact hitWay_eq hx.arr hk hv rfl)
    rw [lineOf_getAddr] at this
    exact ⟨hwb _ this.1, mfind_none.mp this.2⟩
  · intro i hi hv c hc
    exact hwb _ (hx.mw _ i (mfind_eq hx.m hi hv rfl)) c hc

/-! ## C61: replacement -/

/-- **C61.** The way chosen for a new line exists; it is an empty one if there is one. -/
theorem C61_victim (t v : Nat → Bool) : victim t v < ways ∧ ((∃ w, w < ways ∧ v w = false) → v (victim t v) = false) := by
  refine ⟨victim_lt t v, ?_⟩
  rintro ⟨w, hw, hv⟩
  unfold victim
  cases e : (List.range ways).find? (fun w => !v w) with
  | none =>
    rw [List.find?_eq_none] at e
    exact absurd (by rw [hv]; rfl) (e w (List.mem_range.mpr hw))
  | some k => have := List.find?_some e; simpa using this

/-- **C61.** In a full set the way touched last is never the one replaced next. -/
theorem C61_recent (a : Arr) (set : BitVec 8) (w : Nat) (hw : w < ways) (hfull : ∀ k, k < ways → a.valid set k = true) :
    victim ((touch a set w).plru set) ((touch a set w).valid set) ≠ w := by
  have hv : (touch a set w).valid = a.valid := (touch_keeps a set w).1
  have hno : (List.range ways).find? (fun w => !(a.valid set) w) = none := by
    rw [List.find?_eq_none]
    intro k hk
    rw [hfull k (List.mem_range.mp hk)]; simp
  rw [hv]
  unfold victim
  rw [hno]
  dsimp only
  unfold touch
  rw [if_neg (by omega)]
  dsimp only
  rw [if_pos rfl]
  have hcase : w = 0 ∨ w = 1 ∨ w = 2 ∨ w = 3 := by unfold ways wayBits at hw; omega
  rcases hcase with rfl | rfl | rfl | rfl
  all_goals
    simp only [wayBits, touchLoop, victimLoop, upd]
    simp
    try split
    all_goals omega

/-! ## C62: banks -/

/-- The bank of an address: bits 6 to 9. -/
def bankOf (a : BitVec 32) : BitVec 4 := (setOf a).setWidth 4

theorem grant_facts (g : BitVec 4 → Option (BitVec 32)) (a : BitVec 32) :
    (∀ b l, g b = some l → (grant g a).1 b = some l) ∧
    ((grant g a).2 = true → (grant g a).1 (bankOf a) = some (a >>> 6)) ∧
    ((grant g a).2 = false → ∃ l, g (bankOf a) = some l ∧ l ≠ a >>> 6) ∧
    (∀ b l, (grant g a).1 b = some l → g b = some l ∨ (b = bankOf a ∧ l = a >>> 6 ∧ (grant g a).2 = true)) := by
  unfold grant
  dsimp only
  cases e : g ((setOf a).setWidth 4) with
  | none =>
    dsimp only
    refine ⟨?_, ?_, ?_, ?_⟩
    · intro b l hb
      split
      · next hc => rw [hc, e] at hb; cases hb
      · exact hb
    · intro _; exact if_pos rfl
    · intro hc; cases hc
    · intro b l hb
      split at hb
      · next hc => injection hb with hb; exact Or.inr ⟨hc, hb.symm, rfl⟩
      · exact Or.inl hb
  | some l =>
    dsimp only
    refine ⟨fun _ _ hb => hb, ?_, ?_, fun _ _ hb => Or.inl hb⟩
    · intro hd
      show g ((setOf a).setWidth 4) = _
      rw [e, of_decide_eq_true hd]
    · intro hd
      exact ⟨l, e, of_decide_eq_false hd⟩

theorem grantAll_facts : ∀ (as : List (BitVec 32)) (g : BitVec 4 → Option (BitVec 32)),
    (∀ b l, g b = some l → (grantAll g as).1 b = some l) ∧
    (∀ a, (a, false) ∈ as.zip (grantAll g as).2 → (grantAll g as).1 (bankOf a) = some (a >>> 6)) ∧
    (∀ a, (a, true) ∈ as.zip (grantAll g as).2 → ∃ l, l ≠ a >>> 6 ∧
      (g (bankOf a) = some l ∨ ∃ b, (b, false) ∈ as.zip (grantAll g as).2 ∧ bankOf b = bankOf a ∧ b >>> 6 = l)) ∧
    (∀ b l, (grantAll g as).1 b = some l → g b = some l ∨ ∃ a, (a, false) ∈ as.zip (grantAll g as).2 ∧ bankOf a = b ∧ a >>> 6 = l)
  | [], g => ⟨fun _ _ h => h, fun _ h => (by cases h), fun _ h => (by cases h), fun _ _ h => Or.inl h⟩
  | a :: as, g => by
    obtain ⟨g1, g2, g3, g4⟩ := grant_facts g a
    obtain ⟨i1, i2, i3, i4⟩ := grantAll_facts as (grant g a).1
    have e : grantAll g (a :: as) = ((grantAll (grant g a).1 as).1, (!(grant g a).2) :: (grantAll (grant g a).1 as).2) := rfl
    rw [e]
    dsimp only
    rw [List.zip_cons_cons]
    refine ⟨fun b l hb => i1 b l (g1 b l hb), ?_, ?_, ?_⟩
    · intro x hx
      rcases List.mem_cons.mp hx with hx | hx
      · injection hx with hx1 hx2
        subst hx1
        exact i1 _ _ (g2 (by simpa using hx2.symm))
      · exact i2 x hx
    · intro x hx
      rcases List.mem_cons.mp hx with hx | hx
      · injection hx with hx1 hx2
        subst hx1
        obtain ⟨l, h1, h2⟩ := g3 (by simpa using hx2.symm)
        exact ⟨l, h2, Or.inl h1⟩
      · obtain ⟨l, h1, h2⟩ := i3 x hx
        refine ⟨l, h1, ?_⟩
        rcases h2 with h2 | ⟨b, h3, h4, h5⟩
        · rcases g4 _ _ h2 with h2 | ⟨h6, h7, h8⟩
          · exact Or.inl h2
          · exact Or.inr ⟨a, List.mem_cons.mpr (Or.inl (by rw [h8]; rfl)), h6.symm, h7.symm⟩
        · exact Or.inr ⟨b, List.mem_cons_of_mem _ h3, h4, h5⟩
    · intro b l hb
      rcases i4 b l hb with h1 | ⟨x, h1, h2, h3⟩
      · rcases g4 b l h1 with h2 | ⟨h6, h7, h8⟩
        · exact Or.inl h2
        · exact Or.inr ⟨a, List.mem_cons.mpr (Or.inl (by rw [h8]; rfl)), h6.symm, h7.symm⟩
      · exact Or.inr ⟨x, List.mem_cons_of_mem _ h1, h2, h3⟩

theorem grantAll_append (as bs : List (BitVec 32)) : ∀ g : BitVec 4 → Option (BitVec 32),
    grantAll g (as ++ bs) = ((grantAll (grantAll g as).1 bs).1, (grantAll g as).2 ++ (grantAll (grantAll g as).1 bs).2) := by
  induction as with
  | nil => intro g; rfl
  | cons a as ih =>
    intro g
    have e : ∀ xs, grantAll g (a :: xs) = ((grantAll (grant g a).1 xs).1, (!(grant g a).2) :: (grantAll (grant g a).1 xs).2) := fun _ => rfl
    rw [List.cons_append, e, e, ih]
    rfl

/-- **C62.** Of the loads and stores taken in one cycle, any two that are served and use the same bank are for
the same line; one that is refused a bank finds it taken by a different line, either that of a served request
or that of the line being filled. -/
theorem C62_banks (s : State) (written : Bool) (ld : List Ld) (st : List St) :
    (∀ a b, (a, false) ∈ (ld.map (·.addr) ++ st.map (·.addr)).zip ((banks s written ld st).1 ++ (banks s written ld st).2) →
      (b, false) ∈ (ld.map (·.addr) ++ st.map (·.addr)).zip ((banks s written ld st).1 ++ (banks s written ld st).2) →
      bankOf a = bankOf b → a >>> 6 = b >>> 6) ∧
    (∀ a, (a, true) ∈ (ld.map (·.addr) ++ st.map (·.addr)).zip ((banks s written ld st).1 ++ (banks s written ld st).2) →
      (∃ q, s.m.fillReq = some q ∧ bankOf q.addr = bankOf a ∧ q.addr >>> 6 ≠ a >>> 6) ∨
      ∃ b, (b, false) ∈ (ld.map (·.addr) ++ st.map (·.addr)).zip ((banks s written ld st).1 ++ (banks s written ld st).2) ∧
        bankOf b = bankOf a ∧ b >>> 6 ≠ a >>> 6) := by
  unfold banks
  dsimp only
  generalize hg : (fun b => match s.m.fillReq with
    | some q => if (match s.m.fillReq with
        | some q => !(sameInS2 q s.fill && written)
        | none => false) = true ∧ b = (setOf q.addr).setWidth 4 then some (q.addr >>> 6) else none
    | none => none : BitVec 4 → Option (BitVec 32)) = g0
  have happ := grantAll_append (ld.map (·.addr)) (st.map (·.addr)) g0
  have h2 : (grantAll g0 (ld.map (·.addr))).2 ++ (grantAll (grantAll g0 (ld.map (·.addr))).1 (st.map (·.addr))).2 =
      (grantAll g0 (ld.map (·.addr) ++ st.map (·.addr))).2 := by rw [happ]
  rw [h2]
  obtain ⟨_, f2, f3, _⟩ := grantAll_facts (ld.map (·.addr) ++ st.map (·.addr)) g0
  refine ⟨?_, ?_⟩
  · intro a b ha hb hab
    have h1 := f2 a ha
    have h3 := f2 b hb
    rw [hab, h3] at h1
    injection h1 with h1
    exact h1.symm
  · intro a ha
    obtain ⟨l, hl, hc⟩ := f3 a ha
    rcases hc with hc | ⟨b, h3, h4, h5⟩
    · left
      rw [← hg] at hc
      dsimp only at hc
      cases hq : s.m.fillReq with
      | none => rw [hq] at hc; cases hc
      | some q =>
        rw [hq] at hc
        dsimp only at hc
        split at hc
        · next hcc =>
          injection hc with hc
          exact ⟨q, rfl, hcc.2.symm, by rw [hc]; exact hl⟩
        · cases hc
    · exact Or.inr ⟨b, h3, h4, by rw [h5]; exact hl⟩

/-! ## Concrete runs -/

/-- The rules of the interconnect as a check. -/
def validB (s : Sys) : Ev → Bool
  | .rdTake => s.d.m.axiReq.isSome && (List.range mshrN).all fun i => match s.rd i with | some r => r.acked | none => true
  | .rdRead i => match s.rd i with | some r => r.data.isNone | none => false
  | .wrTake => s.d.wb.axiReq.isSome && s.wr.isNone
  | .wrWrite => match s.wr with | some w => !w.done | none => false
  | .tick _ _ _ resp ack =>
    (match resp with
      | some i => (match s.rd i with | some r => r.data.isSome | none => false)
      | none => true) &&
    (!ack || match s.wr with | some w => w.done | none => false)

theorem validB_sound {s : Sys} {e : Ev} (h : validB s e = true) : s.Valid e := by
  cases e with
  | rdTake =>
    unfold validB at h
    rw [Bool.and_eq_true, List.all_eq_true] at h
    refine ⟨fun hc => by rw [hc] at h; simp at h, ?_⟩
    intro i hi r hr
    have := h.2 i (List.mem_range.mpr hi)
    rw [hr] at this
    exact this
  | rdRead i =>
    unfold validB at h
    dsimp only at h
    show ∃ r, s.rd i = some r ∧ r.data = none
    cases e : s.rd i with
    | none => rw [e] at h; cases h
    | some r => rw [e] at h; exact ⟨r, rfl, by simpa using h⟩
  | wrTake =>
    unfold validB at h
    rw [Bool.and_eq_true] at h
    exact ⟨fun hc => by rw [hc] at h; simp at h, by simpa using h.2⟩
  | wrWrite =>
    unfold validB at h
    show ∃ w, s.wr = some w ∧ w.done = false
    cases e : s.wr with
    | none => rw [e] at h; cases h
    | some w => rw [e] at h; exact ⟨w, rfl, by simpa using h⟩
  | tick slow ld st resp ack =>
    unfold validB at h
    rw [Bool.and_eq_true] at h
    refine ⟨?_, ?_⟩
    · intro i hi
      have h1 := h.1
      rw [hi] at h1
      dsimp only at h1
      cases e : s.rd i with
      | none => rw [e] at h1; cases h1
      | some r =>
        rw [e] at h1
        obtain ⟨l, hl⟩ := Option.isSome_iff_exists.mp h1
        exact ⟨r, l, rfl, hl⟩
    · intro ha
      have h2 := h.2
      rw [ha] at h2
      cases e : s.wr with
      | none => rw [e] at h2; cases h2
      | some w => rw [e] at h2; exact ⟨w, rfl, by simpa using h2⟩

/-- The observed state. -/
structure Obs where
  s : Sys
  M : Mem
  ld : List Ld
  st : List St
  /-- answers of the last event -/
  o : Output

def obsStep (x : Obs) (e : Ev) : Option Obs :=
  if validB x.s e then
    match x.s.step e with
    | none => none
    | some (s', o) =>
      match e with
      | .tick true ld' st' _ _ => some { s := s', M := after x.M o.stores, ld := ld', st := st', o := o }
      | _ => some { x with s := s', o := o }
  else none

def observe : Obs → List Ev → Option Obs
  | x, [] => some x
  | x, e :: es => match obsStep x e with
    | none => none
    | some y => observe y es

def obs0 (mem : BitVec 32 → Line) : Obs := { s := Sys.init mem, M := flat mem, ld := [], st := [], o := {} }

theorem obsStep_run {mem : BitVec 32 → Line} {x y : Obs} {e : Ev} (hx : Run mem x.s x.M x.ld x.st) (h : obsStep x e = some y) :
    Run mem y.s y.M y.ld y.st ∧ x.s.Valid e ∧ x.s.step e = some (y.s, y.o) := by
  unfold obsStep at h
  split at h
  · next hv =>
    have hV := validB_sound hv
    cases hs : x.s.step e with
    | none => rw [hs] at h; cases h
    | some p =>
      obtain ⟨s', o⟩ := p
      rw [hs] at h
      dsimp only at h
      split at h
      · next ld' st' resp ack =>
        injection h with h
        subst h
        exact ⟨.cycle ld' st' resp ack hx hV hs, hV, rfl⟩
      · next hne =>
        injection h with h
        subst h
        have hq : isSlow e = false := by
          cases e with
          | tick slow a b c d => cases slow with
            | false => rfl
            | true => exact absurd rfl (hne a b c d)
          | _ => rfl
        exact ⟨.quiet e hq hx hV hs, hV, rfl⟩
  · cases h

theorem observe_run {mem : BitVec 32 → Line} : ∀ (es : List Ev) {x y : Obs}, Run mem x.s x.M x.ld x.st → observe x es = some y →
    Run mem y.s y.M y.ld y.st
  | [], x, y, hx, h => by injection h with h; subst h; exact hx
  | e :: es, x, y, hx, h => by
    unfold observe at h
    cases hs : obsStep x e with
    | none => rw [hs] at h; cases h
    | some z =>
      rw [hs] at h
      exact observe_run es (obsStep_run hx hs).1 h

/-- A run followed by one more event, read off the checker. -/
theorem observe_last {mem : BitVec 32 → Line} {es : List Ev} {e : Ev} {x y : Obs} (h1 : observe (obs0 mem) es = some x) (h2 : obsStep x e = some y) :
    Run mem x.s x.M x.ld x.st ∧ x.s.Valid e ∧ x.s.step e = some (y.s, y.o) := by
  have hr : Run mem x.s x.M x.ld x.st := observe_run es .init h1
  exact ⟨hr, (obsStep_run hr h2).2⟩

/-- Memory with the word number in every word. -/
def memA : BitVec 32 → Line := fun a w => a + BitVec.ofNat 32 w

def ldAt (a : BitVec 32) (i : BitVec 32) : Ld := { addr := a, id := i }
def stAt (a d : BitVec 32) (i : BitVec 32) : St := { addr := a, data := d, strb := 15#8, id := i }
def cyc (ld : List Ld) (st : List St) (resp : Option Nat := none) (ack : Bool := false) : Ev := .tick true ld st resp ack

def lastLoads (mem : BitVec 32 → Line) (es : List Ev) (e : Ev) : Option (List LdResp × List StResp) :=
  (observe (obs0 mem) es).bind fun x => (obsStep x e).map fun y => (y.o.loads, y.o.stores)

/-- A store that misses, the line read from memory, and a load of the stored word. -/
def runHit : List Ev :=
  [cyc [] [stAt 0x1004#32 0xAABBCCDD#32 0#32], cyc [] [], .rdTake, .rdRead 0, cyc [] [] (some 0), cyc [] [], cyc [ldAt 0x1004#32 7#32, ldAt 0x1008#32 8#32] []]

example : lastLoads memA runHit (cyc [] []) =
    some ([{ req := ldAt 0x1004#32 7#32, replay := .hit, data := 0xAABBCCDD#32 }, { req := ldAt 0x1008#32 8#32, replay := .hit, data := 0x1002#32 }], []) := by
  decide +kernel

/-- A load that misses; the store to its line arrives together with the line; the next load. -/
def runStale : List Ev :=
  [cyc [ldAt 0x1004#32 1#32] [], cyc [] [], .rdTake, .rdRead 0, cyc [] [stAt 0x1004#32 0xAABBCCDD#32 2#32],
   cyc [ldAt 0x1004#32 3#32] [] (some 0)]

example : lastLoads memA runStale (cyc [] []) =
    some ([{ req := ldAt 0x1004#32 3#32, replay := .hit, data := 0x1001#32, late := true }], []) := by
  decide +kernel

/-- **C58, what fails.**  There is a run in which a store is answered with a hit and a load of the same word,
requested and answered in later cycles, is answered with a hit and the old value: no prefix of its own batch
(which has no stores) explains it. -/
theorem C58_stale_load : ∃ (mem : BitVec 32 → Line) (s s' : Sys) (M : Mem) (ld : List Ld) (st : List St) (o : Output),
    Run mem s M ld st ∧ s.Valid (.tick true [] [] none false) ∧ s.step (.tick true [] [] none false) = some (s', o) ∧
    ∃ r ∈ o.loads, r.replay = .hit ∧ ∀ n, r.data ≠ word (after M (o.stores.take n)) r.req.addr := by
  have key : (match observe (obs0 memA) runStale with
      | none => false
      | some x => match obsStep x (cyc [] []) with
        | none => false
        | some y => match y.o.loads with
          | [r] => y.o.stores.isEmpty && decide (r.replay = .hit) && decide (r.data ≠ word x.M r.req.addr)
          | _ => false) = true := by decide +kernel
  split at key
  · cases key
  · next x hx =>
    split at key
    · cases key
    · next y hy =>
      obtain ⟨h1, h2, h3⟩ := observe_last hx hy
      split at key
      · next r hr =>
        simp only [Bool.and_eq_true, decide_eq_true_eq, List.isEmpty_iff] at key
        refine ⟨memA, x.s, y.s, x.M, x.ld, x.st, y.o, h1, h2, h3, r, by rw [hr]; exact List.mem_singleton_self r, key.1.2, ?_⟩
        intro n
        rw [key.1.1, List.take_nil]
        exact key.2
      · cases key

/-- A cycle of the fast domain. -/
def fast (resp : Option Nat := none) : Ev := .tick false [] [] resp false

/-- The same at the default pace of fifteen fast cycles per processor cycle: twelve dirty lines of one set fill
the set and the write buffer, whose first write is not taken, so that the next line waits to be written. -/
def runFull : List Ev :=
  let a (i : Nat) : BitVec 32 := BitVec.ofNat 32 (0x1000 + i * 0x4000)
  let miss (i : Nat) : List Ev := [cyc [] [stAt (a i) (BitVec.ofNat 32 (0x100 + i)) 0#32], fast, .rdTake, .rdRead 0, fast (some 0)] ++ List.replicate 13 fast
  (List.range 12).flatMap miss ++
  [cyc [ldAt (a 12) 1#32] [], fast, .rdTake, .rdRead 0, fast (some 0)] ++ List.replicate 13 fast ++
  [cyc [] [stAt (a 12) 0xAABBCCDD#32 2#32]] ++ List.replicate 15 fast ++
  [cyc [ldAt (a 12) 3#32] []] ++ List.replicate 15 fast

set_option maxRecDepth 100000 in
example : ((observe (obs0 memA) runFull).map fun x => (word x.M 0x31000#32, (obsStep x (cyc [] [])).map fun y => y.o.loads)) =
    some (0xAABBCCDD#32, some [{ req := ldAt 0x31000#32 3#32, replay := .hit, data := 0x31000#32, late := true }]) := by decide +kernel

/-- C57, C58: the hypotheses are met, with an answer of every kind. -/
def runKinds : List Ev :=
  [cyc [ldAt 0x1004#32 1#32] [stAt 0x2000#32 5#32 2#32], cyc [] [], .rdTake, .rdRead 0, cyc [] [] (some 0), cyc [] [],
   cyc [ldAt 0x1004#32 3#32, ldAt 0x3000#32 4#32, ldAt 0x3404#32 5#32] [stAt 0x1008#32 9#32 6#32]]

example : (lastLoads memA runKinds (cyc [] [])).map (fun p => (p.1.map fun r => (r.req.id, r.replay, r.late), p.2.map fun r => (r.req.id, r.replay))) =
    some ([(3#32, .hit, false), (4#32, .conflict, false), (5#32, .conflict, false)], [(6#32, .hit)]) := by decide +kernel

/-- C61: the ways of a full set in the order of the touches 0, 1, 2, 3: way 0 is replaced. -/
example : victim ((touch (touch (touch (touch Arr.init 3#8 0) 3#8 1) 3#8 2) 3#8 3).plru 3#8) (fun _ => true) = 0 := by decide

/-- C62: the second load is refused because of the first. -/
example : banks {} false [ldAt 0x1004#32 1#32, ldAt 0x2404#32 2#32, ldAt 0x1008#32 3#32] [stAt 0x2044#32 0#32 0#32] = ([false, true, false], [false]) := by
  decide

/-- C59: a dirty line pushed out of a full set reaches memory.  Four more lines of the set are brought in by
stores, the fifth by a load; then the write buffer is drained. -/
def runEvict : List Ev :=
  let a (i : Nat) : BitVec 32 := BitVec.ofNat 32 (0x1000 + i * 0x4000)
  let miss (i : Nat) : List Ev := [cyc [] [stAt (a i) (BitVec.ofNat 32 (0x100 + i)) 0#32], cyc [] [], .rdTake, .rdRead 0, cyc [] [] (some 0), cyc [] []]
  miss 0 ++ miss 1 ++ miss 2 ++ miss 3 ++ miss 4 ++ [.wrTake, .wrWrite, cyc [] [] none true, cyc [] []]

example : ((observe (obs0 memA) runEvict).map fun x =>
    (x.s.d.wb.count, x.s.mem 0x1000#32 0, word x.M 0x1000#32, x.s.mem 0x11000#32 0, word x.M 0x11000#32)) =
    some (0, 0x100#32, 0x100#32, 0x11000#32, 0x104#32) := by decide +kernel

end Verif.Props

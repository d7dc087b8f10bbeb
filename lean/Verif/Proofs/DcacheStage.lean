import Verif.Proofs.DcacheWb
import Verif.Proofs.DcacheMshr

/-
The arrays and the second stage of the data cache.
-/
namespace Verif.Dcache

/-! ## Arrays -/

theorem hitWay_some {a : Arr} {s : BitVec 8} {t : BitVec 18} {k : Nat} (h : hitWay a s t = some k) :
    k < ways ∧ a.valid s k = true ∧ a.tag s k = t := by
  unfold hitWay at h
  have h1 := List.find?_some h
  have h2 := List.mem_of_find?_eq_some h
  simp only [Bool.and_eq_true, decide_eq_true_eq] at h1
  exact ⟨List.mem_range.mp h2, h1.1, h1.2⟩

theorem hitWay_none {a : Arr} {s : BitVec 8} {t : BitVec 18} :
    hitWay a s t = none ↔ ∀ k, k < ways → a.valid s k = true → a.tag s k ≠ t := by
  unfold hitWay
  rw [List.find?_eq_none]
  constructor
  · intro h k hk hv e; exact h k (List.mem_range.mpr hk) (by simp [hv, e])
  · intro h k hk hb
    simp only [Bool.and_eq_true, decide_eq_true_eq] at hb
    exact h k (List.mem_range.mp hk) hb.1 hb.2

/-- No line is present twice. -/
def AInv (a : Arr) : Prop := ∀ s k k', k < ways → k' < ways → a.valid s k = true → a.valid s k' = true → a.tag s k = a.tag s k' → k = k'

theorem hitWay_eq {a : Arr} (ha : AInv a) {s : BitVec 8} {t : BitVec 18} {k : Nat} (hk : k < ways) (hv : a.valid s k = true)
    (ht : a.tag s k = t) : hitWay a s t = some k := by
  cases e : hitWay a s t with
  | none => exact absurd ht (hitWay_none.mp e k hk hv)
  | some j =>
    obtain ⟨h1, h2, h3⟩ := hitWay_some e
    rw [ha s k j hk h1 hv h2 (ht.trans h3.symm)]

theorem touch_keeps (a : Arr) (s : BitVec 8) (k : Nat) :
    (touch a s k).valid = a.valid ∧ (touch a s k).dirty = a.dirty ∧ (touch a s k).tag = a.tag ∧ (touch a s k).data = a.data := by
  unfold touch; split <;> exact ⟨rfl, rfl, rfl, rfl⟩

theorem touches_keep (ts : List (BitVec 8 × Nat)) : ∀ a : Arr,
    (ts.foldl (fun a t => touch a t.1 t.2) a).valid = a.valid ∧ (ts.foldl (fun a t => touch a t.1 t.2) a).dirty = a.dirty ∧
    (ts.foldl (fun a t => touch a t.1 t.2) a).tag = a.tag ∧ (ts.foldl (fun a t => touch a t.1 t.2) a).data = a.data := by
  induction ts with
  | nil => intro a; exact ⟨rfl, rfl, rfl, rfl⟩
  | cons t ts ih =>
    intro a
    obtain ⟨h1, h2, h3, h4⟩ := ih (touch a t.1 t.2)
    obtain ⟨g1, g2, g3, g4⟩ := touch_keeps a t.1 t.2
    exact ⟨h1.trans g1, h2.trans g2, h3.trans g3, h4.trans g4⟩

/-- Stores written into one way. -/
def StEff.at? (s : BitVec 8) (k : Nat) : StEff → Option St
  | .array s' k' r => if s' = s ∧ k' = k then some r else none
  | _ => none

theorem effs_arr (es : List StEff) : ∀ a : Arr,
    (es.foldl applyEff a).valid = a.valid ∧ (es.foldl applyEff a).tag = a.tag ∧
    (∀ s k, (es.foldl applyEff a).data s k = (es.filterMap (StEff.at? s k)).foldl Line.put (a.data s k)) ∧
    (∀ s k, (es.foldl applyEff a).dirty s k = (a.dirty s k || !(es.filterMap (StEff.at? s k)).isEmpty)) := by
  induction es with
  | nil => intro a; exact ⟨rfl, rfl, fun _ _ => rfl, fun _ _ => by simp⟩
  | cons e es ih =>
    intro a
    obtain ⟨h1, h2, h3, h4⟩ := ih (applyEff a e)
    cases e with
    | array s' k' r =>
      obtain ⟨g1, g2, g3, g4⟩ := touch_keeps (a.put s' k' r) s' k'
      have e1 : (applyEff a (.array s' k' r)).valid = a.valid := g1
      have e2 : (applyEff a (.array s' k' r)).tag = a.tag := g3
      have e3 : (applyEff a (.array s' k' r)).data = upd2 a.data s' k' ((a.data s' k').put r) := g4
      have e4 : (applyEff a (.array s' k' r)).dirty = upd2 a.dirty s' k' true := g2
      rw [List.foldl_cons]
      refine ⟨h1.trans e1, h2.trans e2, fun s k => ?_, fun s k => ?_⟩
      · rw [h3, e3, List.filterMap_cons]
        unfold upd2
        by_cases hs : s = s' ∧ k = k'
        · obtain ⟨rfl, rfl⟩ := hs; simp [StEff.at?]
        · rw [if_neg hs]
          have : ¬ (s' = s ∧ k' = k) := fun h => hs ⟨h.1.symm, h.2.symm⟩
          simp only [StEff.at?, if_neg this]
      · rw [h4, e4, List.filterMap_cons]
        unfold upd2
        by_cases hs : s = s' ∧ k = k'
        · obtain ⟨rfl, rfl⟩ := hs; simp [StEff.at?]
        · rw [if_neg hs]
          have : ¬ (s' = s ∧ k' = k) := fun h => hs ⟨h.1.symm, h.2.symm⟩
          simp only [StEff.at?, if_neg this]
    | fillOut r => exact ⟨h1, h2, h3, h4⟩
    | fillReg r => exact ⟨h1, h2, h3, h4⟩
    | mshr r => exact ⟨h1, h2, h3, h4⟩

theorem victimLoop_lt (t : Nat → Bool) : ∀ k node way, victimLoop t k node way < way + 2 ^ k
  | 0, _, way => by simp [victimLoop]
  | k + 1, node, way => by
    unfold victimLoop
    split
    · have := victimLoop_lt t k (node * 2 + 2) (way + 2 ^ k); rw [Nat.pow_succ]; omega
    · have := victimLoop_lt t k (node * 2 + 1) way
      have h2 : 0 < 2 ^ k := Nat.two_pow_pos k
      rw [Nat.pow_succ]; omega

theorem victim_lt (t v : Nat → Bool) : victim t v < ways := by
  unfold victim
  split
  · next h => exact List.mem_range.mp (List.mem_of_find?_eq_some h)
  · have := victimLoop_lt t wayBits 0 0; simpa [ways] using this

/-! ## Where a line is -/

/-- Line `X` is in at most one place. -/
structure Excl (s : State) : Prop where
  arr : AInv s.arr
  m : MInv s.m
  hold : ∀ i l, s.m.hold = some (i, l) → i < mshrN ∧ (s.m.ent i).valid = true ∧ (s.m.ent i).issued = true
  wbc : s.wb.count ≤ wbN
  cw : ∀ X k, hitWay s.arr (setOf X) (tagOf X) = some k → s.wb.line (lineOf X) = none ∧ s.m.find (lineOf X) = none
  mw : ∀ X i, s.m.find X = some i → s.wb.line X = none

/-- Line of the held response. -/
def Mshr.holdLine (m : Mshr) : Option (BitVec 32) := m.hold.map fun p => (m.ent p.1).addr

theorem Excl.holdFind {s : State} (h : Excl s) {X : BitVec 32} (hX : s.m.holdLine = some X) :
    ∃ i l, s.m.hold = some (i, l) ∧ s.m.find X = some i ∧ (s.m.ent i).addr = X ∧ lineOf X = X := by
  unfold Mshr.holdLine at hX
  obtain ⟨⟨i, l⟩, h1, h2⟩ := Option.map_eq_some_iff.mp hX
  obtain ⟨g1, g2, g3⟩ := h.hold i l h1
  exact ⟨i, l, h1, mfind_eq h.m g1 g2 h2, h2, by rw [← h2]; exact h.m.al i g1 g2⟩

theorem fillReq_some {m : Mshr} {q : FillReq} (h : m.fillReq = some q) :
    ∃ l, m.hold = some (q.id, l) ∧ q.addr = (m.ent q.id).addr ∧ q.data = (m.ent q.id).over l ∧ q.dirty = (m.ent q.id).dirty := by
  unfold Mshr.fillReq at h
  obtain ⟨⟨i, l⟩, h1, h2⟩ := Option.map_eq_some_iff.mp h
  subst h2
  exact ⟨l, h1, rfl, rfl, rfl⟩

theorem fillReq_line {m : Mshr} : m.fillReq.map (·.addr) = m.holdLine := by
  unfold Mshr.fillReq Mshr.holdLine
  rw [Option.map_map]; rfl

theorem Excl.lineMatch {s : State} (h : Excl s) {q : FillReq} (hq : s.m.fillReq = some q) (a : BitVec 32) :
    lineMatch a q.addr = true ↔ s.m.holdLine = some (lineOf a) := by
  have hl : s.m.holdLine = some q.addr := by rw [← fillReq_line, hq]; rfl
  obtain ⟨i, l, _, _, _, h4⟩ := h.holdFind hl
  rw [lineMatch_iff, h4, hl, Option.some_inj, eq_comm]

/-! ## Stores -/

/-- The write buffer's answer. -/
def mgOf (b : Wb) (x : St × Bool) : Merge := if x.2 then .no else (b.merge x.1).2

/-- The stores with their answers and effects. -/
def triples (s : State) (fo : Option FillOut) : Nat → List (St × Bool) → List ((St × Bool) × StResp × Option StEff)
  | _, [] => []
  | free, x :: xs =>
    let t := storeStep s fo free x (mgOf s.wb x)
    (x, t.1, t.2.1) :: triples s fo t.2.2 xs

theorem storesStep_eq (s : State) (fo : Option FillOut) : ∀ (xs : List (St × Bool)) (free : Nat),
    storesStep s fo free (xs.map fun x => (x, mgOf s.wb x)) =
      ((triples s fo free xs).map (·.2.1), (triples s fo free xs).filterMap (·.2.2))
  | [], _ => rfl
  | x :: xs, free => by
    rw [List.map_cons, storesStep, triples]
    dsimp only
    rw [storesStep_eq s fo xs]
    cases h : (storeStep s fo free x (mgOf s.wb x)).2.1 <;> simp [h]

theorem triples_fst (s : State) (fo : Option FillOut) : ∀ (xs : List (St × Bool)) (free : Nat), (triples s fo free xs).map (·.1) = xs
  | [], _ => rfl
  | x :: xs, free => by rw [triples, List.map_cons, triples_fst]

theorem mem_triples {s : State} {fo : Option FillOut} : ∀ {xs : List (St × Bool)} {free : Nat} {t}, t ∈ triples s fo free xs →
    t.1 ∈ xs ∧ ∃ fr, t.2 = ((storeStep s fo fr t.1 (mgOf s.wb t.1)).1, (storeStep s fo fr t.1 (mgOf s.wb t.1)).2.1)
  | [], _, t, h => by cases h
  | x :: xs, free, t, h => by
    rw [triples] at h
    rcases List.mem_cons.mp h with e | e
    · subst e; exact ⟨List.mem_cons_self, free, rfl⟩
    · obtain ⟨h1, h2⟩ := mem_triples e; exact ⟨List.mem_cons_of_mem _ h1, h2⟩

theorem zip_answers (s : State) : s.stores.zip (mergeAll s.wb s.stores).2 = s.stores.map fun x => (x, mgOf s.wb x) := by
  rw [mergeAll_answers s.stores s.wb s.wb (Wb.Same.refl _)]
  induction s.stores with
  | nil => rfl
  | cons x xs ih => rw [List.map_cons, List.zip_cons_cons, ih]; rfl

theorem store_req (s : State) (fo : Option FillOut) (fr : Nat) (x : St × Bool) (mg : Merge) : (storeStep s fo fr x mg).1.req = x.1 := by
  obtain ⟨r, rp⟩ := x
  unfold storeStep
  dsimp only
  repeat' split
  all_goals rfl

theorem store_replayed (s : State) (fo : Option FillOut) (fr : Nat) (r : St) (mg : Merge) :
    storeStep s fo fr (r, true) mg = ({ req := r, replay := .conflict }, none, fr) := rfl

theorem store_fill {s : State} (h : Excl s) (fo : Option FillOut) (fr : Nat) (r : St) (mg : Merge) (hX : s.m.holdLine = some (lineOf r.addr)) :
    storeStep s fo fr (r, false) mg =
      ({ req := r, replay := .hit }, some (if s.inS2 = true ∧ fo.isSome = true then .fillOut r else .fillReg r), fr) := by
  obtain ⟨q, hq⟩ : ∃ q, s.m.fillReq = some q := by
    rw [← fillReq_line] at hX; obtain ⟨q, hq, _⟩ := Option.map_eq_some_iff.mp hX; exact ⟨q, hq⟩
  have hm := (h.lineMatch hq r.addr).mpr hX
  have hf : s.fillHits r.addr = true := by unfold State.fillHits; rw [hq]; exact hm
  unfold storeStep
  simp only [Bool.false_eq_true, if_false, hf, if_true]
  by_cases hc : s.inS2 = true ∧ fo.isSome = true
  · rw [if_pos hc, if_pos hc]
  · rw [if_neg hc, if_neg hc]

theorem no_fill {s : State} (h : Excl s) (r : St) (hX : s.m.holdLine ≠ some (lineOf r.addr)) :
    s.fillHits r.addr = false := by
  unfold State.fillHits
  cases hq : s.m.fillReq with
  | none => rfl
  | some q =>
    dsimp only
    rw [Bool.eq_false_iff]
    intro e
    exact hX ((h.lineMatch hq r.addr).mp e)

theorem store_array {s : State} (h : Excl s) (fo : Option FillOut) (fr : Nat) (r : St) (mg : Merge) {k : Nat}
    (hk : hitWay s.arr (setOf r.addr) (tagOf r.addr) = some k) :
    storeStep s fo fr (r, false) mg =
      if s.clash fo (setOf r.addr) k then ({ req := r, replay := .conflict }, none, fr)
      else ({ req := r, replay := .hit }, some (.array (setOf r.addr) k r), fr) := by
  have hX : s.m.holdLine ≠ some (lineOf r.addr) := by
    intro e
    obtain ⟨i, l, _, h2, _, _⟩ := h.holdFind e
    rw [(h.cw _ k hk).2] at h2; cases h2
  have hf := no_fill h r hX
  unfold storeStep
  simp only [Bool.false_eq_true, if_false, hk, hf]

theorem store_wb {s : State} (h : Excl s) (fo : Option FillOut) (fr : Nat) (r : St) {l : Line} (hl : s.wb.line (lineOf r.addr) = some l) :
    storeStep s fo fr (r, false) (mgOf s.wb (r, false)) =
      ({ req := r, replay := if (s.wb.merge r).2 = .done then .hit else .conflict }, none, fr) := by
  have hX : s.m.holdLine ≠ some (lineOf r.addr) := by
    intro e
    obtain ⟨i, l', _, h2, _, _⟩ := h.holdFind e
    rw [h.mw _ i h2] at hl; cases hl
  have hf := no_fill h r hX
  have hw : hitWay s.arr (setOf r.addr) (tagOf r.addr) = none := by
    cases e : hitWay s.arr (setOf r.addr) (tagOf r.addr) with
    | none => rfl
    | some k => rw [(h.cw _ k e).1] at hl; cases hl
  have hmg : (s.wb.merge r).2 ≠ .no := by
    intro e; rw [merge_no_iff, hl] at e; cases e
  unfold storeStep mgOf
  simp only [Bool.false_eq_true, if_false, hw, hf]
  cases e : (s.wb.merge r).2 with
  | no => exact absurd e hmg
  | busy => simp
  | done => simp

theorem store_miss {s : State} (h : Excl s) (fo : Option FillOut) (fr : Nat) (r : St) (hX : s.m.holdLine ≠ some (lineOf r.addr))
    (hw : hitWay s.arr (setOf r.addr) (tagOf r.addr) = none) (hl : s.wb.line (lineOf r.addr) = none) :
    storeStep s fo fr (r, false) (mgOf s.wb (r, false)) =
      if (s.m.find (lineOf r.addr)).isSome then ({ req := r, replay := .hit }, some (.mshr r), fr)
      else if fr = 0 then ({ req := r, replay := .mshrFull }, none, fr)
      else ({ req := r, replay := .hit }, some (.mshr r), fr - 1) := by
  have hf := no_fill h r hX
  have hmg : (s.wb.merge r).2 = .no := by rw [merge_no_iff, hl]
  unfold storeStep mgOf
  simp only [Bool.false_eq_true, if_false, hw, hf, hmg]

/-- The stores of the list answered with a hit, for one line. -/
def hitsOf (X : BitVec 32) (rs : List StResp) : List St :=
  rs.filterMap fun r => if r.replay = .hit ∧ lineOf r.req.addr = X then some r.req else none

theorem filterMap_triples {β : Type} (ts : List ((St × Bool) × StResp × Option StEff)) (g : StEff → Option β) :
    (ts.filterMap (·.2.2)).filterMap g = ts.filterMap fun t => t.2.2.bind g := by
  rw [List.filterMap_filterMap]

theorem hitsOf_triples (X : BitVec 32) (ts : List ((St × Bool) × StResp × Option StEff)) :
    hitsOf X (ts.map (·.2.1)) = ts.filterMap fun t => if t.2.1.replay = .hit ∧ lineOf t.2.1.req.addr = X then some t.2.1.req else none := by
  unfold hitsOf; rw [List.filterMap_map]; rfl

/-- Kinds of places of a store's line; exactly one applies. -/
theorem place {s : State} (_h : Excl s) (r : St) :
    (s.m.holdLine = some (lineOf r.addr)) ∨ (∃ k, hitWay s.arr (setOf r.addr) (tagOf r.addr) = some k) ∨
    (∃ l, s.wb.line (lineOf r.addr) = some l) ∨
    (s.m.holdLine ≠ some (lineOf r.addr) ∧ hitWay s.arr (setOf r.addr) (tagOf r.addr) = none ∧ s.wb.line (lineOf r.addr) = none) := by
  by_cases h1 : s.m.holdLine = some (lineOf r.addr)
  · exact Or.inl h1
  · cases h2 : hitWay s.arr (setOf r.addr) (tagOf r.addr) with
    | some k => exact Or.inr (Or.inl ⟨k, rfl⟩)
    | none =>
      cases h3 : s.wb.line (lineOf r.addr) with
      | some l => exact Or.inr (Or.inr (Or.inl ⟨l, rfl⟩))
      | none => exact Or.inr (Or.inr (Or.inr ⟨h1, rfl, rfl⟩))

/-- Everything about one store. -/
structure StoreFacts (s : State) (fo : Option FillOut) (t : (St × Bool) × StResp × Option StEff) : Prop where
  req : t.2.1.req = t.1.1
  out : t.2.2.bind StEff.out? =
    if s.inS2 = true ∧ fo.isSome = true then (if t.2.1.replay = .hit ∧ s.m.holdLine = some (lineOf t.2.1.req.addr) then some t.2.1.req else none) else none
  reg : t.2.2.bind StEff.reg? =
    if s.inS2 = true ∧ fo.isSome = true then none else (if t.2.1.replay = .hit ∧ s.m.holdLine = some (lineOf t.2.1.req.addr) then some t.2.1.req else none)
  arr : ∀ set k, t.2.2.bind (StEff.at? set k) =
    if t.2.1.replay = .hit ∧ setOf t.2.1.req.addr = set ∧ hitWay s.arr (setOf t.2.1.req.addr) (tagOf t.2.1.req.addr) = some k then some t.2.1.req else none
  clash : ∀ k, hitWay s.arr (setOf t.2.1.req.addr) (tagOf t.2.1.req.addr) = some k → s.clash fo (setOf t.2.1.req.addr) k = true → t.2.1.replay ≠ .hit
  wb : (s.wb.line (lineOf t.1.1.addr)).isSome → (t.2.1.replay = .hit ↔ (t.1.2 = false ∧ (s.wb.merge t.1.1).2 = .done))
  mshr : t.2.2.bind StEff.mshr? =
    if t.2.1.replay = .hit ∧ s.m.holdLine ≠ some (lineOf t.2.1.req.addr) ∧ hitWay s.arr (setOf t.2.1.req.addr) (tagOf t.2.1.req.addr) = none ∧
      s.wb.line (lineOf t.2.1.req.addr) = none then some (.store t.2.1.req) else none
  waits : t.2.1.replay.waits = true → s.m.find (lineOf t.2.1.req.addr) = none

theorem storeFacts {s : State} (h : Excl s) {fo : Option FillOut} {xs : List (St × Bool)} {free : Nat} {t}
    (ht : t ∈ triples s fo free xs) : StoreFacts s fo t := by
  obtain ⟨_, fr, he⟩ := mem_triples ht
  obtain ⟨⟨r, rp⟩, resp, eff⟩ := t
  dsimp only at he
  injection he with h1 h2
  cases rp with
  | true =>
    rw [store_replayed] at h1 h2
    subst h1 h2
    refine ⟨rfl, ?_, ?_, ?_, ?_, ?_, ?_, ?_⟩ <;> simp [Replay.waits]
  | false =>
    rcases place h r with hp | ⟨k, hk⟩ | ⟨l, hl⟩ | ⟨g1, g2, g3⟩
    · rw [store_fill h fo fr r _ hp] at h1 h2
      subst h1 h2
      obtain ⟨i, l, _, hfi, _, _⟩ := h.holdFind hp
      have hw : hitWay s.arr (setOf r.addr) (tagOf r.addr) = none := by
        cases e : hitWay s.arr (setOf r.addr) (tagOf r.addr) with
        | none => rfl
        | some k => rw [(h.cw _ k e).2] at hfi; cases hfi
      have hl := h.mw _ i hfi
      by_cases hc : s.inS2 = true ∧ fo.isSome = true
      · refine ⟨rfl, ?_, ?_, ?_, ?_, ?_, ?_, ?_⟩ <;>
          simp [hc, hp, hw, hl, Replay.waits, StEff.out?, StEff.reg?, StEff.at?, StEff.mshr?]
      · refine ⟨rfl, ?_, ?_, ?_, ?_, ?_, ?_, ?_⟩ <;>
          simp [hc, hp, hw, hl, Replay.waits, StEff.out?, StEff.reg?, StEff.at?, StEff.mshr?]
    · rw [store_array h fo fr r _ hk] at h1 h2
      obtain ⟨hl, hfn⟩ := h.cw _ k hk
      have hX : s.m.holdLine ≠ some (lineOf r.addr) := by
        intro e
        obtain ⟨i, l, _, h2, _, _⟩ := h.holdFind e
        rw [hfn] at h2; cases h2
      by_cases hc : s.clash fo (setOf r.addr) k = true
      · rw [if_pos hc] at h1 h2
        subst h1 h2
        refine ⟨rfl, ?_, ?_, ?_, ?_, ?_, ?_, ?_⟩ <;> simp [hl, Replay.waits]
      · rw [if_neg hc] at h1 h2
        subst h1 h2
        refine ⟨rfl, ?_, ?_, ?_, ?_, ?_, ?_, ?_⟩ <;>
          simp [hX, hk, hl, hc, Replay.waits, StEff.out?, StEff.reg?, StEff.at?, StEff.mshr?]
    · have hwt : ∀ (b : Bool), (if b then Replay.hit else Replay.conflict).waits = false := by intro b; cases b <;> rfl
      rw [store_wb h fo fr r hl] at h1 h2
      have hX : s.m.holdLine ≠ some (lineOf r.addr) := by
        intro e
        obtain ⟨i, l', _, h2, _, _⟩ := h.holdFind e
        rw [h.mw _ i h2] at hl; cases hl
      have hw : hitWay s.arr (setOf r.addr) (tagOf r.addr) = none := by
        cases e : hitWay s.arr (setOf r.addr) (tagOf r.addr) with
        | none => rfl
        | some k => rw [(h.cw _ k e).1] at hl; cases hl
      subst h1 h2
      refine ⟨rfl, ?_, ?_, ?_, ?_, ?_, ?_, ?_⟩ <;> simp only [hX, hw, hl, Option.bind_none]
      · simp
      · simp
      · simp
      · simp
      · intro _; cases e : (s.wb.merge r).2 <;> simp
      · simp
      · cases e : (s.wb.merge r).2 <;> simp [Replay.waits]
    · rw [store_miss h fo fr r g1 g2 g3] at h1 h2
      by_cases hf : (s.m.find (lineOf r.addr)).isSome = true
      · rw [if_pos hf] at h1 h2
        subst h1 h2
        refine ⟨rfl, ?_, ?_, ?_, ?_, ?_, ?_, ?_⟩ <;>
          simp [g1, g2, g3, Replay.waits, StEff.out?, StEff.reg?, StEff.at?, StEff.mshr?]
      · rw [if_neg hf] at h1 h2
        have hfn : s.m.find (lineOf r.addr) = none := by
          cases e : s.m.find (lineOf r.addr) with
          | none => rfl
          | some _ => rw [e] at hf; exact absurd rfl hf
        by_cases hz : fr = 0
        · rw [if_pos hz] at h1 h2
          subst h1 h2
          refine ⟨rfl, ?_, ?_, ?_, ?_, ?_, ?_, ?_⟩ <;> simp [g1, g2, g3, hfn]
        · rw [if_neg hz] at h1 h2
          subst h1 h2
          refine ⟨rfl, ?_, ?_, ?_, ?_, ?_, ?_, ?_⟩ <;>
            simp [g1, g2, g3, hfn, Replay.waits, StEff.out?, StEff.reg?, StEff.at?, StEff.mshr?]

/-! ## Loads -/

/-- The loads with their answers and requests. -/
def ltriples (s : State) : Nat → List (Ld × Bool) → List ((Ld × Bool) × LdResp × Option MReq)
  | _, [] => []
  | free, x :: xs =>
    let t := loadStep s free x
    (x, t.1, t.2.1) :: ltriples s t.2.2 xs

theorem loadsStep_eq (s : State) : ∀ (xs : List (Ld × Bool)) (free : Nat),
    (loadsStep s free xs).1 = (ltriples s free xs).map (·.2.1) ∧ (loadsStep s free xs).2.1 = (ltriples s free xs).filterMap (·.2.2)
  | [], _ => ⟨rfl, rfl⟩
  | x :: xs, free => by
    rw [loadsStep, ltriples]
    dsimp only
    obtain ⟨h1, h2⟩ := loadsStep_eq s xs (loadStep s free x).2.2
    constructor
    · rw [h1]; rfl
    · rw [h2]; cases h : (loadStep s free x).2.1 <;> simp [h]

theorem ltriples_fst (s : State) : ∀ (xs : List (Ld × Bool)) (free : Nat), (ltriples s free xs).map (·.1) = xs
  | [], _ => rfl
  | x :: xs, free => by rw [ltriples, List.map_cons, ltriples_fst]

theorem mem_ltriples {s : State} : ∀ {xs : List (Ld × Bool)} {free : Nat} {t}, t ∈ ltriples s free xs →
    t.1 ∈ xs ∧ ∃ fr, t.2 = ((loadStep s fr t.1).1, (loadStep s fr t.1).2.1)
  | [], _, t, h => by cases h
  | x :: xs, free, t, h => by
    rw [ltriples] at h
    rcases List.mem_cons.mp h with e | e
    · subst e; exact ⟨List.mem_cons_self, free, rfl⟩
    · obtain ⟨h1, h2⟩ := mem_ltriples e; exact ⟨List.mem_cons_of_mem _ h1, h2⟩

/-- Everything about one load. -/
structure LoadFacts (s : State) (t : (Ld × Bool) × LdResp × Option MReq) : Prop where
  req : t.2.1.req = t.1.1
  hit : t.2.1.replay = .hit →
    (∃ l, s.wb.line (lineOf t.2.1.req.addr) = some l ∧ t.2.1.data = l (wordOf t.2.1.req.addr)) ∨
    (∃ k, hitWay s.arr (setOf t.2.1.req.addr) (tagOf t.2.1.req.addr) = some k ∧ t.2.1.data = s.arr.data (setOf t.2.1.req.addr) k (wordOf t.2.1.req.addr))
  ask : ∀ q, t.2.2 = some q → q = .load t.2.1.req.addr ∧ s.m.find (lineOf t.2.1.req.addr) = none ∧
    hitWay s.arr (setOf t.2.1.req.addr) (tagOf t.2.1.req.addr) = none ∧ s.wb.line (lineOf t.2.1.req.addr) = none
  late : t.2.1.late = false

theorem loadFacts {s : State} {xs : List (Ld × Bool)} {free : Nat} {t} (ht : t ∈ ltriples s free xs) : LoadFacts s t := by
  obtain ⟨_, fr, he⟩ := mem_ltriples ht
  obtain ⟨⟨r, rp⟩, resp, eff⟩ := t
  dsimp only at he
  injection he with h1 h2
  unfold loadStep at h1 h2
  dsimp only at h1 h2
  rw [bypass_eq] at h1 h2
  cases rp with
  | true =>
    simp only [if_true] at h1 h2
    subst h1 h2
    exact ⟨rfl, fun h => (by cases h), fun _ h => (by cases h), rfl⟩
  | false =>
    simp only [Bool.false_eq_true, if_false] at h1 h2
    cases hl : s.wb.line (lineOf r.addr) with
    | some l =>
      rw [hl] at h1 h2
      simp only [Option.map_some] at h1 h2
      subst h1 h2
      exact ⟨rfl, fun _ => Or.inl ⟨l, hl, rfl⟩, fun _ h => (by cases h), rfl⟩
    | none =>
      rw [hl] at h1 h2
      simp only [Option.map_none] at h1 h2
      cases hw : hitWay s.arr (setOf r.addr) (tagOf r.addr) with
      | some k =>
        rw [hw] at h1 h2
        simp only at h1 h2
        subst h1 h2
        exact ⟨rfl, fun _ => Or.inr ⟨k, hw, rfl⟩, fun _ h => (by cases h), rfl⟩
      | none =>
        rw [hw] at h1 h2
        simp only at h1 h2
        split at h1
        · next hp =>
          rw [if_pos hp] at h2
          subst h1 h2
          exact ⟨rfl, fun h => (by cases h), fun _ h => (by cases h), rfl⟩
        · next hp =>
          rw [if_neg hp] at h2
          split at h1
          · next hf =>
            rw [if_pos hf] at h2
            subst h1 h2
            exact ⟨rfl, fun h => (by cases h), fun _ h => (by cases h), rfl⟩
          · next hf =>
            rw [if_neg hf] at h2
            split at h1
            · next hz =>
              rw [if_pos hz] at h2
              subst h1 h2
              exact ⟨rfl, fun h => (by cases h), fun _ h => (by cases h), rfl⟩
            · next hz =>
              rw [if_neg hz] at h2
              subst h1 h2
              refine ⟨rfl, fun h => (by cases h), fun q h => ?_, rfl⟩
              injection h with h
              refine ⟨h.symm, ?_, hw, hl⟩
              cases e : s.m.find (lineOf r.addr) with
              | none => rfl
              | some _ => rw [e] at hf; exact absurd rfl hf

/-! ## Room in the MSHR -/

theorem loads_room (s : State) : ∀ (xs : List (Ld × Bool)) (free : Nat),
    need s.m (loadsStep s free xs).2.1 + (loadsStep s free xs).2.2 ≤ free
  | [], free => by simp [loadsStep, need]
  | x :: xs, free => by
    show need s.m ((loadStep s free x).2.1.toList ++ (loadsStep s (loadStep s free x).2.2 xs).2.1) +
      (loadsStep s (loadStep s free x).2.2 xs).2.2 ≤ free
    have ih := loads_room s xs (loadStep s free x).2.2
    have h1 : need s.m ((loadStep s free x).2.1.toList) + (loadStep s free x).2.2 ≤ free := by
      obtain ⟨r, rp⟩ := x
      unfold loadStep
      dsimp only
      repeat' split
      all_goals simp [need]
      next hz => split <;> omega
    unfold need at h1 ih ⊢
    rw [List.countP_append]; omega

theorem stores_room (s : State) (h : Excl s) (fo : Option FillOut) : ∀ (xs : List (St × Bool)) (free : Nat),
    need s.m ((triples s fo free xs).filterMap fun t => t.2.2.bind StEff.mshr?) ≤ free
  | [], free => by simp [triples, need]
  | (r, rp) :: xs, free => by
    rw [triples]
    have ih := stores_room s h fo xs (storeStep s fo free (r, rp) (mgOf s.wb (r, rp))).2.2
    have h1 : need s.m (((storeStep s fo free (r, rp) (mgOf s.wb (r, rp))).2.1.bind StEff.mshr?).toList) +
        (storeStep s fo free (r, rp) (mgOf s.wb (r, rp))).2.2 ≤ free := by
      cases rp with
      | true => rw [store_replayed]; simp [need]
      | false =>
        rcases place h r with hp | ⟨k, hk⟩ | ⟨l, hl⟩ | ⟨g1, g2, g3⟩
        · rw [store_fill h fo free r _ hp]
          dsimp only
          split <;> simp [need, StEff.mshr?]
        · rw [store_array h fo free r _ hk]
          split <;> simp [need, StEff.mshr?]
        · rw [store_wb h fo free r hl]; simp [need]
        · rw [store_miss h fo free r g1 g2 g3]
          split
          · next hf =>
            cases e : s.m.find (lineOf r.addr) with
            | none => rw [e] at hf; cases hf
            | some i => simp [need, StEff.mshr?, MReq.addr, e]
          · split
            · simp [need]
            · next hz => simp only [need, StEff.mshr?, Option.bind_some, Option.toList_some, List.countP_cons, List.countP_nil]; split <;> omega
    rw [List.filterMap_cons]
    cases e : (storeStep s fo free (r, rp) (mgOf s.wb (r, rp))).2.1.bind StEff.mshr? with
    | none => rw [e] at h1; simp [need] at h1; dsimp only; omega
    | some q =>
      rw [e] at h1
      dsimp only
      unfold need at h1 ih ⊢
      rw [List.countP_cons]
      simp only [Option.toList_some, List.countP_cons, List.countP_nil] at h1
      omega

end Verif.Dcache

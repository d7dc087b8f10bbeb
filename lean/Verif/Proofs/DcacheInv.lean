import Verif.Proofs.DcacheCore

/-
Invariant of the data cache with its memory, and the memory contents it stands for.
-/
namespace Verif.Dcache

/-- Line of the fill register. -/
def FillW.line (f : FillW) : BitVec 32 := getAddr f.set f.tag

structure Inv (s : Sys) : Prop where
  ex : Excl s.d
  head : s.d.wb.head < wbN
  al : ∀ c, c < s.d.wb.count → lineOf (s.d.wb.at c).addr = (s.d.wb.at c).addr
  wr : ∀ w, s.wr = some w → 0 < s.d.wb.count ∧ w.addr = (s.d.wb.at 0).addr ∧ w.data = (s.d.wb.at 0).data ∧
    w.acked = s.d.wb.send ∧ (w.done = true → s.mem w.addr = w.data)
  idle : s.wr = none → s.d.wb.send = false
  rd : ∀ i r, s.rd i = some r → i < mshrN ∧ (s.d.m.ent i).valid = true ∧ r.addr = (s.d.m.ent i).addr ∧
    r.acked = (s.d.m.ent i).issued ∧ (∀ l, r.data = some l → l = s.mem r.addr) ∧ ∀ l, s.d.m.hold ≠ some (i, l)
  rd1 : ∀ i j r r', s.rd i = some r → s.rd j = some r' → r.acked = false → r'.acked = false → i = j
  hold : ∀ i l, s.d.m.hold = some (i, l) → l = s.mem (s.d.m.ent i).addr
  clean : ∀ set k, k < ways → s.d.arr.valid set k = true → s.d.arr.dirty set k = false →
    s.d.arr.data set k = s.mem (getAddr set (s.d.arr.tag set k))
  fill : ∀ f, s.d.fill = some f → ∃ l, s.d.m.hold = some (f.id, l) ∧ (s.d.m.ent f.id).addr = f.line ∧
    (f.touched = false → f.data = (s.d.m.ent f.id).over l ∧ f.dirty = (s.d.m.ent f.id).dirty) ∧ (f.touched = true → f.dirty = true)
  pend : s.d.loads ≠ [] ∨ s.d.stores ≠ [] → s.d.pendLd = [] ∧ s.d.pendSt = []
  pst : ∀ r, r ∈ s.d.pendSt → r.replay.waits = true → ∀ f, s.d.fill = some f → f.line ≠ lineOf r.req.addr

/-- The contents of line `X`: what the arrays hold, else what the write buffer holds, else what the fill
register holds, else the memory with the stores merged into an outstanding miss. -/
def State.view (s : State) (mem : BitVec 32 → Line) (X : BitVec 32) : Line :=
  match hitWay s.arr (setOf X) (tagOf X) with
  | some k => s.arr.data (setOf X) k
  | none =>
    match s.wb.line X with
    | some l => l
    | none =>
      match s.fill with
      | some f => if f.line = X then f.data else s.m.view X (mem X)
      | none => s.m.view X (mem X)

/-! ## The fill in the second stage -/

theorem fs_some {s : State} {o : FillOut} (h : s.fs.1 = some o) : ∃ f, s.fill = some f ∧
    o = { id := f.id, dirty := f.dirty, set := f.set, tag := f.tag, way := victim (s.arr.plru f.set) (s.arr.valid f.set), data := f.data } ∧
    s.fs.2 = if s.arr.valid f.set o.way = true ∧ s.arr.dirty f.set o.way = true then
      some (getAddr f.set (s.arr.tag f.set o.way), s.arr.data f.set o.way) else none := by
  unfold State.fs fillStep at h ⊢
  split at h
  · cases h
  · next f hf =>
    dsimp only at h ⊢
    refine ⟨f, hf, ?_⟩
    split at h
    · next hv =>
      rw [if_pos hv]
      split at h
      · next hw =>
        rw [if_pos hw]
        injection h with h
        subst h
        dsimp only
        exact ⟨rfl, by rw [if_pos hv]⟩
      · cases h
    · next hv =>
      rw [if_neg hv]
      injection h with h
      subst h
      dsimp only
      exact ⟨rfl, by rw [if_neg hv]⟩

theorem fs_none {s : State} (h : s.fs.1 = none) : s.fs.2 = none := by
  unfold State.fs fillStep at h ⊢
  split
  · rfl
  · next f hf =>
    rw [hf] at h
    dsimp only at h ⊢
    repeat' split at h
    all_goals first | cases h | skip
    next h1 h2 => rw [if_pos h1, if_neg h2]

theorem fo_some {s : State} {o : FillOut} (h : s.fo = some o) : ∃ f o0, s.fs.1 = some o0 ∧ s.fill = some f ∧
    o0.way = o.way ∧ o.id = f.id ∧ o.set = f.set ∧ o.tag = f.tag ∧ o.way < ways ∧
    o.data = s.outs.foldl Line.put f.data ∧ (o.dirty = false → f.dirty = false ∧ s.outs = []) ∧
    s.fs.2 = if s.arr.valid f.set o.way = true ∧ s.arr.dirty f.set o.way = true then
      some (getAddr f.set (s.arr.tag f.set o.way), s.arr.data f.set o.way) else none := by
  unfold State.fo at h
  obtain ⟨o0, h1, h2⟩ := Option.map_eq_some_iff.mp h
  rw [fold_fo] at h2
  obtain ⟨f, hf, ho, he⟩ := fs_some h1
  subst h2
  refine ⟨f, o0, h1, hf, rfl, by rw [ho], by rw [ho], by rw [ho], ?_, by rw [ho], ?_, he⟩
  · show o0.way < ways
    rw [ho]; exact victim_lt _ _
  · intro hd
    dsimp only at hd
    rw [Bool.or_eq_false_iff] at hd
    refine ⟨by rw [← hd.1, ho], ?_⟩
    have := hd.2
    cases e : s.outs with
    | nil => rfl
    | cons => rw [e] at this; simp at this

theorem fo_none {s : State} (h : s.fo = none) : s.fs.1 = none ∧ s.fs.2 = none := by
  unfold State.fo at h
  have : s.fs.1 = none := by cases e : s.fs.1 with
    | none => rfl
    | some _ => rw [e] at h; cases h
  exact ⟨this, fs_none this⟩

/-- An evicted line was in the arrays. -/
theorem evict_cached {s : State} (ha : AInv s.arr) {a : BitVec 32} {l : Line} (h : s.fs.2 = some (a, l)) :
    ∃ o, s.fo = some o ∧ hitWay s.arr (setOf a) (tagOf a) = some o.way ∧ setOf a = o.set ∧ l = s.arr.data (setOf a) o.way ∧ lineOf a = a := by
  cases e : s.fo with
  | none => rw [(fo_none e).2] at h; cases h
  | some o =>
    obtain ⟨f, o0, _, hf, _, _, hs, _, hw, _, _, he⟩ := fo_some e
    rw [h] at he
    split at he
    · next hv =>
      injection he with he
      injection he with h1 h2
      subst h1
      refine ⟨o, rfl, ?_, ?_, ?_, lineOf_getAddr _ _⟩
      · rw [set_getAddr, tag_getAddr]; exact hitWay_eq ha hw hv.1 rfl
      · rw [set_getAddr, hs]
      · rw [set_getAddr]; exact h2
    · cases he

/-! ## The arrays -/

theorem arr2_keeps (s : State) : s.arr2.valid = s.arr.valid ∧ s.arr2.tag = s.arr.tag ∧
    (∀ set k, s.arr2.data set k = (s.ts.filterMap fun t => t.2.2.bind (StEff.at? set k)).foldl Line.put (s.arr.data set k)) ∧
    (∀ set k, s.arr2.dirty set k = (s.arr.dirty set k || !(s.ts.filterMap fun t => t.2.2.bind (StEff.at? set k)).isEmpty)) := by
  obtain ⟨h1, h2, h3, h4⟩ := effs_arr (s.ts.filterMap (·.2.2)) ((s.loads.filterMap (loadTouch s)).foldl (fun a t => touch a t.1 t.2) s.arr)
  obtain ⟨g1, g2, g3, g4⟩ := touches_keep (s.loads.filterMap (loadTouch s)) s.arr
  refine ⟨h1.trans g1, h2.trans g3, fun set k => ?_, fun set k => ?_⟩
  · have := h3 set k; rw [g4, filterMap_triples] at this; exact this
  · have := h4 set k; rw [g2, filterMap_triples] at this; exact this

theorem hit2 (s : State) (S : BitVec 8) (T : BitVec 18) : hitWay s.arr2 S T = hitWay s.arr S T := by
  unfold hitWay; rw [(arr2_keeps s).1, (arr2_keeps s).2.1]

/-- The fill's line is not in the arrays. -/
theorem fill_absent {s : Sys} (h : Inv s) {f : FillW} (hf : s.d.fill = some f) : hitWay s.d.arr f.set f.tag = none := by
  obtain ⟨l, h1, h2, _⟩ := h.fill f hf
  obtain ⟨g1, g2, _⟩ := h.ex.hold _ _ h1
  have hfi := mfind_eq h.ex.m g1 g2 h2
  cases e : hitWay s.d.arr f.set f.tag with
  | none => rfl
  | some k =>
    have := (h.ex.cw f.line k (by unfold FillW.line; rw [set_getAddr, tag_getAddr]; exact e)).2
    unfold FillW.line at this hfi
    rw [lineOf_getAddr, hfi] at this
    cases this

theorem arr3_some {s : Sys} (h : Inv s) {o : FillOut} (ho : s.d.fo = some o) :
    s.d.arr3.valid = upd2 s.d.arr.valid o.set o.way true ∧ s.d.arr3.tag = upd2 s.d.arr.tag o.set o.way o.tag ∧
    s.d.arr3.data = upd2 s.d.arr2.data o.set o.way o.data ∧ s.d.arr3.dirty = upd2 s.d.arr2.dirty o.set o.way o.dirty := by
  obtain ⟨f, o0, _, hf, _, _, hs, ht, _⟩ := fo_some ho
  have hn : hitWay s.d.arr2 o.set o.tag = none := by rw [hit2, hs, ht]; exact fill_absent h hf
  have he : s.d.arr3 = s.d.arr2.install o := by unfold State.arr3; rw [ho]
  rw [he]
  unfold Arr.install
  rw [hn]
  dsimp only [Option.getD]
  obtain ⟨g1, g2, g3, g4⟩ := touch_keeps
    { s.d.arr2 with
      valid := upd2 s.d.arr2.valid o.set o.way true
      dirty := upd2 s.d.arr2.dirty o.set o.way o.dirty
      tag := upd2 s.d.arr2.tag o.set o.way o.tag
      data := upd2 s.d.arr2.data o.set o.way o.data } o.set o.way
  refine ⟨?_, ?_, g4, g2⟩
  · rw [g1, (arr2_keeps s.d).1]
  · rw [g3, (arr2_keeps s.d).2.1]

theorem arr3_none {s : State} (ho : s.fo = none) : s.arr3 = s.arr2 := by unfold State.arr3; rw [ho]

/-- Arrays stay free of duplicates. -/
theorem ainv3 {s : Sys} (h : Inv s) : AInv s.d.arr3 := by
  cases ho : s.d.fo with
  | none =>
    rw [arr3_none ho]
    intro S k k' hk hk' h1 h2 h3
    rw [(arr2_keeps s.d).1] at h1 h2
    rw [(arr2_keeps s.d).2.1] at h3
    exact h.ex.arr S k k' hk hk' h1 h2 h3
  | some o =>
    obtain ⟨e1, e2, _, _⟩ := arr3_some h ho
    obtain ⟨f, o0, _, hf, _, _, hs, ht, _⟩ := fo_some ho
    have hn := hitWay_none.mp (fill_absent h hf)
    intro S k k' hk hk' h1 h2 h3
    rw [e1] at h1 h2
    rw [e2] at h3
    unfold upd2 at h1 h2 h3
    by_cases c1 : S = o.set ∧ k = o.way
    · by_cases c2 : S = o.set ∧ k' = o.way
      · rw [c1.2, c2.2]
      · exfalso
        rw [if_neg c2] at h2 h3
        rw [if_pos c1] at h3
        rw [c1.1, hs] at h2 h3
        exact hn k' hk' h2 (by rw [← h3, ht])
    · by_cases c2 : S = o.set ∧ k' = o.way
      · exfalso
        rw [if_neg c1] at h1 h3
        rw [if_pos c2] at h3
        rw [c2.1, hs] at h1 h3
        exact hn k hk h1 (by rw [h3, ht])
      · rw [if_neg c1] at h1 h3
        rw [if_neg c2] at h2 h3
        exact h.ex.arr S k k' hk hk' h1 h2 h3

/-- Where a line is in the arrays after the cycle. -/
theorem hit3 {s : Sys} (h : Inv s) {o : FillOut} (ho : s.d.fo = some o) (S : BitVec 8) (T : BitVec 18) :
    hitWay s.d.arr3 S T = if S = o.set ∧ T = o.tag then some o.way
      else if S = o.set ∧ hitWay s.d.arr S T = some o.way then none else hitWay s.d.arr S T := by
  obtain ⟨e1, e2, _, _⟩ := arr3_some h ho
  obtain ⟨f, o0, _, hf, _, _, hs, ht, hw, _⟩ := fo_some ho
  have hA := ainv3 h
  by_cases c1 : S = o.set ∧ T = o.tag
  · rw [if_pos c1]
    exact hitWay_eq hA hw (by rw [e1]; unfold upd2; rw [if_pos ⟨c1.1, rfl⟩]) (by rw [e2]; unfold upd2; rw [if_pos ⟨c1.1, rfl⟩, c1.2])
  · rw [if_neg c1]
    by_cases c2 : S = o.set ∧ hitWay s.d.arr S T = some o.way
    · rw [if_pos c2, hitWay_none]
      intro k hk hv ht'
      rw [e1] at hv
      rw [e2] at ht'
      unfold upd2 at hv ht'
      by_cases c3 : S = o.set ∧ k = o.way
      · rw [if_pos c3] at ht'; exact c1 ⟨c2.1, ht'.symm⟩
      · rw [if_neg c3] at hv ht'
        have := hitWay_eq h.ex.arr hk hv ht'
        rw [c2.2] at this
        injection this with this
        exact c3 ⟨c2.1, this.symm⟩
    · rw [if_neg c2]
      cases e : hitWay s.d.arr S T with
      | some k =>
        obtain ⟨g1, g2, g3⟩ := hitWay_some e
        have c3 : ¬ (S = o.set ∧ k = o.way) := fun c => c2 ⟨c.1, by rw [e, c.2]⟩
        exact hitWay_eq hA g1 (by rw [e1]; unfold upd2; rw [if_neg c3]; exact g2) (by rw [e2]; unfold upd2; rw [if_neg c3]; exact g3)
      | none =>
        rw [hitWay_none] at e ⊢
        intro k hk hv ht'
        rw [e1] at hv
        rw [e2] at ht'
        unfold upd2 at hv ht'
        by_cases c3 : S = o.set ∧ k = o.way
        · rw [if_pos c3] at ht'; exact c1 ⟨c3.1, ht'.symm⟩
        · rw [if_neg c3] at hv ht'; exact e k hk hv ht'

end Verif.Dcache

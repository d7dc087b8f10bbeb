import Verif.Proofs.DcacheView

/-
The contents of each line after a cycle of the data cache.
-/
namespace Verif.Dcache

theorem b_line {s : State} (h : Excl s) {b : Wb} (hb : (mergeAll s.wb s.stores).1.push s.fs.2 = some b) {X : BitVec 32}
    (hX : ∀ a l, s.fs.2 = some (a, l) → X ≠ a) : b.line X = (s.wb.line X).map fun l => (mergedIn s.wb X s.stores).foldl Line.put l := by
  rw [← mergeAll_line s.stores s.wb s.wb (Wb.Same.refl _) h.wbc X]
  cases e : s.fs.2 with
  | none =>
    rw [e] at hb
    unfold Wb.push at hb
    injection hb with hb
    rw [hb]
  | some p =>
    obtain ⟨a, l⟩ := p
    rw [e] at hb
    rw [push_line hb, if_neg (hX a l e)]

theorem b_evict {s : State} {b : Wb} (hb : (mergeAll s.wb s.stores).1.push s.fs.2 = some b) {X : BitVec 32} {l : Line}
    (hX : s.fs.2 = some (X, l)) : b.line X = some l := by
  rw [hX] at hb
  rw [push_line hb, if_pos rfl]

theorem hits_ts (s : State) (X : BitVec 32) : hitsOf X s.ss2 =
    s.ts.filterMap fun t => if t.2.1.replay = .hit ∧ lineOf t.2.1.req.addr = X then some t.2.1.req else none := hitsOf_triples X s.ts

theorem filterMap_congr' {α β : Type} {f g : α → Option β} {l : List α} (h : ∀ a ∈ l, f a = g a) : l.filterMap f = l.filterMap g := by
  induction l with
  | nil => rfl
  | cons a l ih =>
    rw [List.filterMap_cons, List.filterMap_cons, h a List.mem_cons_self, ih (fun x hx => h x (List.mem_cons_of_mem _ hx))]

/-- Stores to a cached line. -/
theorem hits_cached {s : State} (h : Excl s) {X : BitVec 32} (hl : lineOf X = X) {k : Nat} (hk : hitWay s.arr (setOf X) (tagOf X) = some k) :
    (s.ts.filterMap fun t => t.2.2.bind (StEff.at? (setOf X) k)) = hitsOf X s.ss2 := by
  rw [hits_ts]
  apply filterMap_congr'
  intro t ht
  rw [(mem_ts h ht).arr]
  by_cases c : t.2.1.replay = .hit ∧ lineOf t.2.1.req.addr = X
  · rw [if_pos c, if_pos]
    have : setOf t.2.1.req.addr = setOf X ∧ tagOf t.2.1.req.addr = tagOf X := line_eq_iff.mp (by rw [c.2, hl])
    exact ⟨c.1, this.1, by rw [this.1, this.2]; exact hk⟩
  · rw [if_neg c, if_neg]
    rintro ⟨h1, h2, h3⟩
    apply c
    refine ⟨h1, ?_⟩
    rw [h2] at h3
    have : tagOf t.2.1.req.addr = tagOf X := by rw [← (hitWay_some h3).2.2, ← (hitWay_some hk).2.2]
    rw [← hl]; exact line_eq_iff.mpr ⟨h2, this⟩

theorem hits_wb {s : State} (h : Excl s) {X : BitVec 32} {l : Line} (hw : s.wb.line X = some l) :
    mergedIn s.wb X s.stores = hitsOf X s.ss2 := by
  rw [hits_ts]
  have h0 : s.stores = s.ts.map (·.1) := (triples_fst s s.fs.1 s.stores s.ls.2.2).symm
  unfold mergedIn
  conv => lhs; rw [h0]
  rw [List.filterMap_map]
  apply filterMap_congr'
  intro t ht
  have hf := mem_ts h ht
  dsimp only [Function.comp]
  rw [hf.req]
  by_cases c : lineOf t.1.1.addr = X
  · have hw' := hf.wb (by rw [c, hw]; rfl)
    by_cases c2 : t.2.1.replay = .hit
    · rw [if_pos ⟨(hw'.mp c2).1, c, (hw'.mp c2).2⟩, if_pos ⟨c2, c⟩]
    · rw [if_neg (fun hc => c2 (hw'.mpr ⟨hc.1, hc.2.2⟩)), if_neg (fun hc => c2 hc.1)]
  · rw [if_neg (fun hc => c hc.2.1), if_neg (fun hc => c hc.2)]

theorem hits_out {s : Sys} (h : Inv s) {X : BitVec 32} (hh : s.d.m.holdLine = some X) (hf : s.d.fill.isSome = true) (ho : s.d.fo.isSome = true) :
    s.d.outs = hitsOf X s.d.ss2 := by
  rw [hits_ts]
  unfold State.outs
  apply filterMap_congr'
  intro t ht
  rw [(mem_ts h.ex ht).out, if_pos ⟨by rw [inS2_eq h]; exact hf, by rw [← fo_isSome]; exact ho⟩, hh]
  simp only [Option.some.injEq]
  by_cases c : X = lineOf t.2.1.req.addr <;> simp [c, eq_comm]

theorem hits_regs {s : Sys} (h : Inv s) {X : BitVec 32} (hh : s.d.m.holdLine = some X) (ho : s.d.fo = none) :
    s.d.regs = hitsOf X s.d.ss2 := by
  rw [hits_ts]
  unfold State.regs
  apply filterMap_congr'
  intro t ht
  rw [(mem_ts h.ex ht).reg, if_neg (fun hc => by rw [← fo_isSome, ho] at hc; simp at hc), hh]
  simp only [Option.some.injEq]
  by_cases c : X = lineOf t.2.1.req.addr <;> simp [c, eq_comm]

theorem hits_mshr {s : Sys} (h : Inv s) {X : BitVec 32} (hl : lineOf X = X) (hh : s.d.m.holdLine ≠ some X)
    (hk : hitWay s.d.arr (setOf X) (tagOf X) = none) (hw : s.d.wb.line X = none) :
    (s.d.reqs.filterMap fun q => if lineOf q.addr = X then q.store? else none) = hitsOf X s.d.ss2 := by
  unfold State.reqs
  rw [List.filterMap_append]
  have h1 : (s.d.ls.2.1.filterMap fun q => if lineOf q.addr = X then q.store? else none) = [] := by
    rw [List.filterMap_eq_nil_iff]
    intro q hq
    rw [(ls_reqs hq).1]; split <;> rfl
  rw [h1, List.nil_append, List.filterMap_filterMap, hits_ts]
  apply filterMap_congr'
  intro t ht
  rw [(mem_ts h.ex ht).mshr]
  by_cases c : lineOf t.2.1.req.addr = X
  · have hs : setOf t.2.1.req.addr = setOf X ∧ tagOf t.2.1.req.addr = tagOf X := line_eq_iff.mp (by rw [c, hl])
    by_cases c2 : t.2.1.replay = .hit
    · rw [if_pos ⟨c2, by rw [c]; exact hh, by rw [hs.1, hs.2]; exact hk, by rw [c]; exact hw⟩, if_pos ⟨c2, c⟩]
      simp [MReq.addr, MReq.store?, c]
    · rw [if_neg (fun hc => c2 hc.1), if_neg (fun hc => c2 hc.1)]; rfl
  · split <;> simp [MReq.addr, c]

/-- A line not cached does not get into the arrays unless it is the one being filled. -/
theorem hit3_none {s : Sys} (h : Inv s) {X : BitVec 32} (hl : lineOf X = X) (hk : hitWay s.d.arr (setOf X) (tagOf X) = none)
    (hX : s.d.fo.isSome = true → s.d.m.holdLine ≠ some X) : hitWay s.d.arr3 (setOf X) (tagOf X) = none := by
  cases ho : s.d.fo with
  | none => rw [arr3_none ho, hit2]; exact hk
  | some o =>
    obtain ⟨f, o0, _, hf, _, _, hs, ht, _⟩ := fo_some ho
    rw [hit3 h ho]
    have hne : ¬ (setOf X = o.set ∧ tagOf X = o.tag) := by
      rintro ⟨c1, c2⟩
      apply hX (by rw [ho]; rfl)
      rw [fill_hold h hf, ← hl]
      unfold FillW.line
      rw [← hs, ← ht, ← c1, ← c2]
      rfl
    rw [if_neg hne, hk]; simp

/-- An evicted line is not an uncached one. -/
theorem evict_ne {s : State} (h : Excl s) {X : BitVec 32} (hk : hitWay s.arr (setOf X) (tagOf X) = none) :
    ∀ a l, s.fs.2 = some (a, l) → X ≠ a := by
  rintro a l he rfl
  obtain ⟨o, _, h2, _⟩ := evict_cached h.arr he
  rw [hk] at h2; cases h2

/-- The fill register holds the line being filled. -/
theorem fill'_line {s : Sys} (h : Inv s) {f : FillW} (hf : s.d.fill' = some f) : s.d.m.holdLine = some f.line := by
  have hn := fillNext h
  rw [hf] at hn
  cases hn with
  | stay g hg _ =>
    have hh := fill_hold h hg
    exact hh
  | enter q t hq _ _ _ _ =>
    rw [← fillReq_line, hq]
    obtain ⟨l, h1, h2, _⟩ := fillReq_some hq
    obtain ⟨g1, g2, _⟩ := h.ex.hold _ _ h1
    have := h.ex.m.al _ g1 g2
    rw [← h2] at this
    show some q.addr = some (getAddr (setOf q.addr) (tagOf q.addr))
    rw [show getAddr (setOf q.addr) (tagOf q.addr) = lineOf q.addr from rfl, this]

theorem mview_none {m : Mshr} {X : BitVec 32} (h : m.find X = none) (l : Line) : m.view X l = l := by unfold Mshr.view; rw [h]

/-- What one cycle does to the contents of a line: the stores answered with a hit in this cycle are written
into it, in order, and nothing else changes. -/
theorem view_next {s : Sys} (h : Inv s) (slow : Bool) (ld : List Ld) (st : List St) {b : Wb}
    (hb : (mergeAll s.d.wb s.d.stores).1.push s.d.fs.2 = some b) {X : BitVec 32} (hl : lineOf X = X) :
    (s.d.next slow ld st b).view s.mem X = (s.d.hits X).foldl Line.put (s.d.view s.mem X) := by
  have hv : (s.d.next slow ld st b).view s.mem X =
    (match hitWay s.d.arr3 (setOf X) (tagOf X) with
    | some k => s.d.arr3.data (setOf X) k
    | none => match b.line X with
      | some l => l
      | none => match s.d.fill' with
        | some f => if f.line = X then f.data else (s.d.reqs.foldl Mshr.request s.d.m1).view X (s.mem X)
        | none => (s.d.reqs.foldl Mshr.request s.d.m1).view X (s.mem X)) := rfl
  rw [hv]
  have hR := reqsStep h
  have hM := m1Facts h
  unfold State.hits
  cases hk : hitWay s.d.arr (setOf X) (tagOf X) with
  | some k =>
    -- cached
    have hs0 : s.d.view s.mem X = s.d.arr.data (setOf X) k := by unfold State.view; rw [hk]
    obtain ⟨hkw, hkv, hkt⟩ := hitWay_some hk
    have hcw := h.ex.cw X k hk
    rw [hl] at hcw
    have hnh : s.d.m.holdLine ≠ some X := by
      intro hh; rw [(hold_out h hh).1] at hk; cases hk
    rw [fwds_other h.ex hnh, List.nil_append, hs0]
    by_cases hvic : ∃ o, s.d.fo = some o ∧ setOf X = o.set ∧ k = o.way
    · obtain ⟨o, ho, hso, hwo⟩ := hvic
      obtain ⟨f, o0, ho0, hf, how, _, hs, ht, _, _, _, he⟩ := fo_some ho
      have hnohit : hitsOf X s.d.ss2 = [] := by
        rw [hits_ts, List.filterMap_eq_nil_iff]
        intro t ht
        rw [if_neg]
        rintro ⟨c1, c2⟩
        have hst : setOf t.2.1.req.addr = setOf X ∧ tagOf t.2.1.req.addr = tagOf X := line_eq_iff.mp (by rw [c2, hl])
        refine (mem_ts h.ex ht).clash k (by rw [hst.1, hst.2]; exact hk) ?_ c1
        unfold State.clash
        rw [hf, ho0, hst.1]
        show (decide (f.set = setOf X) && decide (o0.way = k)) = true
        rw [how, hwo, hso, hs]; simp
      rw [hnohit, List.foldl_nil]
      have h3 : hitWay s.d.arr3 (setOf X) (tagOf X) = none := by
        rw [hit3 h ho]
        have hne : ¬ (setOf X = o.set ∧ tagOf X = o.tag) := by
          rintro ⟨c1, c2⟩
          have := fill_absent h hf
          rw [← hs, ← ht, ← c1, ← c2, hk] at this; cases this
        rw [if_neg hne, if_pos ⟨hso, by rw [hk, hwo]⟩]
      rw [h3]
      dsimp only
      rw [← hs, ← hso, ← hwo] at he
      by_cases hd : s.d.arr.dirty (setOf X) k = true
      · rw [if_pos ⟨hkv, hd⟩, hkt, show getAddr (setOf X) (tagOf X) = lineOf X from rfl, hl] at he
        rw [b_evict hb he]
      · rw [if_neg (fun hc => hd hc.2)] at he
        rw [b_line h.ex hb (fun a l hc => by rw [he] at hc; cases hc), hcw.1]
        dsimp only [Option.map_none]
        have hmv : (s.d.reqs.foldl Mshr.request s.d.m1).view X (s.mem X) = s.mem X := by
          apply mview_none
          rw [hR.other X ?_, hM.find, hcw.2]
          · split <;> rfl
          · rintro q hq rfl
            have := (reqs_out h.ex hq).2.1
            rw [set_lineOf, tag_lineOf, this] at hk; cases hk
        rw [hmv]
        have hcl := h.clean (setOf X) k hkw hkv (by simpa using hd)
        rw [hkt, show getAddr (setOf X) (tagOf X) = lineOf X from rfl, hl] at hcl
        rw [hcl]
        cases hf' : s.d.fill' with
        | none => rfl
        | some g =>
          dsimp only
          rw [if_neg]
          intro hg
          apply hnh
          rw [fill'_line h hf', hg]
    · -- stays
      have h3 : hitWay s.d.arr3 (setOf X) (tagOf X) = some k ∧ s.d.arr3.data (setOf X) k = s.d.arr2.data (setOf X) k := by
        cases ho : s.d.fo with
        | none => rw [arr3_none ho, hit2]; exact ⟨hk, rfl⟩
        | some o =>
          obtain ⟨f, o0, _, hf, _, _, hs, ht, _⟩ := fo_some ho
          have hnv : ¬ (setOf X = o.set ∧ k = o.way) := fun hc => hvic ⟨o, ho, hc⟩
          have hne : ¬ (setOf X = o.set ∧ tagOf X = o.tag) := by
            rintro ⟨c1, c2⟩
            have := fill_absent h hf
            rw [← hs, ← ht, ← c1, ← c2, hk] at this; cases this
          rw [hit3 h ho, if_neg hne, hk, if_neg (fun hc => hnv ⟨hc.1, by injection hc.2⟩)]
          refine ⟨rfl, ?_⟩
          rw [(arr3_some h ho).2.2.1]
          unfold upd2
          rw [if_neg hnv]
      rw [h3.1]
      dsimp only
      rw [h3.2, (arr2_keeps s.d).2.2.1, hits_cached h.ex hl hk]
  | none =>
    have hev := evict_ne h.ex hk
    rw [b_line h.ex hb hev]
    cases hw : s.d.wb.line X with
    | some l =>
      -- in the write buffer
      have hs0 : s.d.view s.mem X = l := by unfold State.view; rw [hk]; dsimp only; rw [hw]
      have hnh : s.d.m.holdLine ≠ some X := by
        intro hh; rw [(hold_out h hh).2] at hw; cases hw
      rw [hit3_none h hl hk (fun _ => hnh), fwds_other h.ex hnh, List.nil_append, hs0, hits_wb h.ex hw]
      rfl
    | none =>
      dsimp only [Option.map_none]
      have hs0 : s.d.view s.mem X = (match s.d.fill with
        | some f => if f.line = X then f.data else s.d.m.view X (s.mem X)
        | none => s.d.m.view X (s.mem X)) := by unfold State.view; rw [hk]; dsimp only; rw [hw]; rfl
      rw [hs0]
      by_cases hh : s.d.m.holdLine = some X
      · rw [fwds_same h.ex hh]
        have hn := fillNext h
        generalize s.d.fill' = fl at hn ⊢
        cases hn with
        | idle c1 _ _ => rw [c1] at hh; cases hh
        | written f hf ho _ =>
          have hfl := fill_hold h hf
          rw [hh] at hfl
          injection hfl with hfl
          rw [fwds_fill h hf, hf, List.nil_append]
          dsimp only
          rw [if_pos hfl.symm]
          obtain ⟨o, ho'⟩ := Option.isSome_iff_exists.mp ho
          obtain ⟨f', o0, _, hf', _, _, hs, ht, _, hdat, _⟩ := fo_some ho'
          rw [hf] at hf'
          injection hf' with hf'
          subst hf'
          have hset : setOf X = o.set ∧ tagOf X = o.tag := by
            rw [hfl]; unfold FillW.line; rw [set_getAddr, tag_getAddr, hs, ht]; exact ⟨rfl, rfl⟩
          rw [hit3 h ho', if_pos hset]
          dsimp only
          rw [(arr3_some h ho').2.2.1]
          unfold upd2
          rw [if_pos ⟨hset.1, rfl⟩, hdat, hits_out h hh (by rw [hf]; rfl) ho]
        | stay f hf ho =>
          have hfl := fill_hold h hf
          rw [hh] at hfl
          injection hfl with hfl
          rw [hit3_none h hl hk (fun hc => by rw [ho] at hc; cases hc), fwds_fill h hf, hf, List.nil_append]
          dsimp only
          have e : FillW.line { f with data := s.d.regs.foldl Line.put f.data, dirty := f.dirty || !s.d.regs.isEmpty, touched := f.touched || !s.d.regs.isEmpty } = f.line := rfl
          rw [e, if_pos hfl.symm, if_pos hfl.symm, hits_regs h hh ho]
        | enter q t hq hf ho _ _ =>
          rw [hit3_none h hl hk (fun hc => by rw [ho] at hc; cases hc), hf]
          dsimp only
          have hqX : q.addr = X := by
            rw [← fillReq_line, hq] at hh; injection hh
          have e : FillW.line
            { id := q.id
              dirty := q.dirty || !(s.d.fwds ++ s.d.regs).isEmpty
              set := setOf q.addr
              tag := tagOf q.addr
              data := (s.d.fwds ++ s.d.regs).foldl Line.put q.data
              touched := t } = X := by
            show lineOf q.addr = X
            rw [hqX, hl]
          rw [if_pos e, hits_regs h hh ho]
          obtain ⟨l, g1, g2, g3, _⟩ := fillReq_some hq
          have hfi : s.d.m.find X = some q.id := mfind_eq h.ex.m (h.ex.hold _ _ g1).1 (h.ex.hold _ _ g1).2.1 (by rw [← g2, hqX])
          have : s.d.m.view X (s.mem X) = q.data := by
            unfold Mshr.view
            rw [hfi, g3, h.hold _ _ g1, ← g2, hqX]
          rw [this]
      · -- an outstanding miss, or nowhere
        rw [hit3_none h hl hk (fun _ => hh), fwds_other h.ex hh, List.nil_append]
        dsimp only
        have h1 : (match s.d.fill with
          | some f => if f.line = X then f.data else s.d.m.view X (s.mem X)
          | none => s.d.m.view X (s.mem X)) = s.d.m.view X (s.mem X) := by
          cases hf : s.d.fill with
          | none => rfl
          | some f => dsimp only; rw [if_neg (fun hc => hh (by rw [fill_hold h hf, hc]))]
        have h2 : (match s.d.fill' with
          | some f => if f.line = X then f.data else (s.d.reqs.foldl Mshr.request s.d.m1).view X (s.mem X)
          | none => (s.d.reqs.foldl Mshr.request s.d.m1).view X (s.mem X)) = (s.d.reqs.foldl Mshr.request s.d.m1).view X (s.mem X) := by
          cases hf : s.d.fill' with
          | none => rfl
          | some f => dsimp only; rw [if_neg (fun hc => hh (by rw [fill'_line h hf, hc]))]
        rw [h1, h2, hR.view, hits_mshr h hl hh hk hw]
        congr 1
        unfold Mshr.view
        rw [hM.find, if_neg (fun hc => hh hc.2)]
        cases hfi : s.d.m.find X with
        | none => rfl
        | some i =>
          dsimp only
          rw [hM.ent i]
          intro _ l hc
          apply hh
          unfold Mshr.holdLine
          rw [hc]
          simp only [Option.map_some]
          rw [(mfind_some hfi).2.2]

end Verif.Dcache

import Verif.Proofs.DcacheInv

/-
What one cycle does to the contents of each line.
-/
namespace Verif.Dcache

theorem inS2_eq {s : Sys} (h : Inv s) : s.d.inS2 = s.d.fill.isSome := by
  unfold State.inS2
  cases hf : s.d.fill with
  | none => cases s.d.m.fillReq <;> rfl
  | some f =>
    obtain ⟨l, h1, h2, _⟩ := h.fill f hf
    have hl : s.d.m.holdLine = some f.line := by unfold Mshr.holdLine; rw [h1]; simp [h2]
    rw [← fillReq_line] at hl
    obtain ⟨q, hq, ha⟩ := Option.map_eq_some_iff.mp hl
    rw [hq]
    dsimp only
    rw [ha]; unfold FillW.line; rw [set_getAddr, tag_getAddr]; simp

theorem sameInS2_eq {s : Sys} (h : Inv s) {q q' : FillReq} (hq : s.d.m.fillReq = some q) (ha : q'.addr = q.addr) :
    sameInS2 q' s.d.fill = s.d.fill.isSome := by
  have := inS2_eq h
  unfold State.inS2 at this
  rw [hq] at this
  rw [← this]
  unfold sameInS2
  cases s.d.fill with
  | none => rfl
  | some f => dsimp only; rw [ha]

theorem fill_hold {s : Sys} (h : Inv s) {f : FillW} (hf : s.d.fill = some f) : s.d.m.holdLine = some f.line := by
  obtain ⟨l, h1, h2, _⟩ := h.fill f hf
  unfold Mshr.holdLine; rw [h1]; simp [h2]

/-- A line being filled is nowhere else. -/
theorem hold_out {s : Sys} (h : Inv s) {X : BitVec 32} (hX : s.d.m.holdLine = some X) :
    hitWay s.d.arr (setOf X) (tagOf X) = none ∧ s.d.wb.line X = none := by
  obtain ⟨i, l, h1, h2, h3, h4⟩ := h.ex.holdFind hX
  refine ⟨?_, h.ex.mw X i h2⟩
  cases e : hitWay s.d.arr (setOf X) (tagOf X) with
  | none => rfl
  | some k => have := (h.ex.cw X k e).2; rw [h4, h2] at this; cases this

theorem mem_ts {s : State} (h : Excl s) {t} (ht : t ∈ s.ts) : StoreFacts s s.fs.1 t := storeFacts h ht

theorem ls_reqs {s : State} {q : MReq} (hq : q ∈ s.ls.2.1) : q.store? = none ∧ s.m.find (lineOf q.addr) = none ∧
    hitWay s.arr (setOf q.addr) (tagOf q.addr) = none ∧ s.wb.line (lineOf q.addr) = none := by
  unfold State.ls at hq
  rw [(loadsStep_eq s s.loads _).2] at hq
  obtain ⟨t, ht, he⟩ := List.mem_filterMap.mp hq
  obtain ⟨h1, h2, h3, h4⟩ := (loadFacts ht).ask q he
  rw [h1]
  exact ⟨rfl, h2, h3, h4⟩

/-- Requests to the MSHRs are for lines held nowhere. -/
theorem reqs_out {s : State} (h : Excl s) {q : MReq} (hq : q ∈ s.reqs) : s.m.holdLine ≠ some (lineOf q.addr) ∧
    hitWay s.arr (setOf q.addr) (tagOf q.addr) = none ∧ s.wb.line (lineOf q.addr) = none := by
  unfold State.reqs at hq
  rcases List.mem_append.mp hq with hq | hq
  · obtain ⟨_, h2, h3, h4⟩ := ls_reqs hq
    refine ⟨fun hh => ?_, h3, h4⟩
    obtain ⟨i, l, _, g2, _⟩ := h.holdFind hh
    rw [g2] at h2; cases h2
  · obtain ⟨t, ht, he⟩ := List.mem_filterMap.mp hq
    have hf := (mem_ts h ht).mshr
    rw [he] at hf
    split at hf
    · next hc => injection hf with hf; rw [hf]; exact hc.2
    · cases hf

structure M1Facts (s : State) : Prop where
  inv : MInv s.m1
  find : ∀ X, s.m1.find X = if s.fo.isSome = true ∧ s.m.holdLine = some X then none else s.m.find X
  hold : s.m1.hold = if s.fo.isSome = true then none else s.m.hold
  cnt : s.m1.count ≤ s.m.count
  ent : ∀ i, (s.fo.isSome = true → ∀ l, s.m.hold ≠ some (i, l)) → s.m1.ent i = s.m.ent i
  gone : ∀ i l, s.fo.isSome = true → s.m.hold = some (i, l) → (s.m1.ent i).valid = false

theorem m1Facts {s : Sys} (h : Inv s) : M1Facts s.d := by
  cases ho : s.d.fo with
  | none =>
    have e : s.d.m1 = s.d.m := by unfold State.m1; rw [ho]; rfl
    refine ⟨by rw [e]; exact h.ex.m, fun X => by rw [e]; simp [ho], by rw [e]; simp [ho], by rw [e]; exact Nat.le_refl _, fun i _ => by rw [e], fun i l hc => ?_⟩
    rw [ho] at hc; cases hc
  | some o =>
    obtain ⟨f, o0, _, hf, _, hid, _⟩ := fo_some ho
    obtain ⟨l, h1, h2, _⟩ := h.fill f hf
    obtain ⟨g1, g2, g3⟩ := h.ex.hold _ _ h1
    have e : s.d.m1 = s.d.m.done f.id := by unfold State.m1; rw [ho]; simp [Mshr.finish, hid]
    obtain ⟨d1, d2, d3, d4, d5⟩ := done_inv h.ex.m g1 h1 g2 g3
    have hl : s.d.m.holdLine = some f.line := fill_hold h hf
    refine ⟨by rw [e]; exact d1, fun X => ?_, by rw [e, d2]; simp [ho], by rw [e]; omega, fun i hi => ?_, fun i l' _ hh => ?_⟩
    · rw [e, ho]
      by_cases c : s.d.m.holdLine = some X
      · rw [if_pos ⟨rfl, c⟩, mfind_none]
        rw [hl] at c
        injection c with c
        intro i hi hv ha
        by_cases ei : i = f.id
        · subst ei; rw [d5] at hv; cases hv
        · rw [d4 i ei] at hv ha
          exact ei (h.ex.m.dist i f.id hi g1 hv g2 (by rw [ha, h2, c]))
      · rw [if_neg (fun hc => c hc.2)]
        cases em : s.d.m.find X with
        | none =>
          rw [mfind_none] at em ⊢
          intro i hi hv
          by_cases ei : i = f.id
          · subst ei; rw [d5] at hv; cases hv
          · rw [d4 i ei] at hv ⊢; exact em i hi hv
        | some i =>
          obtain ⟨i1, i2, i3⟩ := mfind_some em
          have ei : i ≠ f.id := by
            intro ei; subst ei; apply c; rw [hl, ← h2, i3]
          exact mfind_eq d1 i1 (by rw [d4 i ei]; exact i2) (by rw [d4 i ei]; exact i3)
    · rw [e]
      apply d4
      intro ei
      subst ei
      exact hi (by rw [ho]; rfl) l h1
    · rw [h1] at hh; injection hh with hh; injection hh with hh _
      rw [e, ← hh]; exact d5

theorem countP_le_length {α : Type} (p : α → Bool) (l : List α) : l.countP p ≤ l.length := List.countP_le_length

theorem reqsStep {s : Sys} (h : Inv s) : ReqsStep s.d.m1 (s.d.reqs.foldl Mshr.request s.d.m1) s.d.reqs := by
  have hm := m1Facts h
  apply requests_step _ hm.inv
  have hn : need s.d.m1 s.d.reqs = need s.d.m s.d.reqs := by
    unfold need
    apply List.countP_congr
    intro q hq
    rw [hm.find, if_neg (fun hc => (reqs_out h.ex hq).1 hc.2)]
  rw [hn]
  have h1 : need s.d.m s.d.ls.2.1 + s.d.ls.2.2 ≤ mshrN - s.d.m.count := loads_room s.d s.d.loads (mshrN - s.d.m.count)
  have h2 : need s.d.m (s.d.ts.filterMap fun t => t.2.2.bind StEff.mshr?) ≤ s.d.ls.2.2 := stores_room s.d h.ex s.d.fs.1 s.d.stores s.d.ls.2.2
  have h3 : need s.d.m s.d.reqs = need s.d.m s.d.ls.2.1 + need s.d.m (s.d.ts.filterMap fun t => t.2.2.bind StEff.mshr?) := by
    unfold need State.reqs; rw [List.countP_append]
  have hc : s.d.m.count ≤ mshrN := by
    rw [h.ex.m.cnt]
    have := countP_le_length (fun i => (s.d.m.ent i).valid) (List.range mshrN)
    rw [List.length_range] at this; exact this
  have := hm.cnt
  omega

/-! ## Stores taken from the waiting answers -/

def fwdOf (q : Option FillReq) (r : StResp) : Option St :=
  match q with
  | some q => if fwdTakes q r then some r.req else none
  | none => none

/-- Stores forwarded into the fill. -/
def State.fwds (s : State) : List St := s.ps.filterMap (fwdOf s.m.fillReq)

/-- The stores to line `X` that take effect in this cycle, in order. -/
def State.hits (s : State) (X : BitVec 32) : List St := s.fwds.filter (fun r => lineOf r.addr = X) ++ hitsOf X s.ss2

theorem fwdOf_some {s : State} (h : Excl s) {r : StResp} {x : St} (he : fwdOf s.m.fillReq r = some x) :
    x = r.req ∧ r.replay.waits = true ∧ s.m.holdLine = some (lineOf x.addr) := by
  unfold fwdOf at he
  split at he
  · next q hq =>
    split at he
    · next ht =>
      injection he with he
      unfold fwdTakes at ht
      rw [Bool.and_eq_true] at ht
      exact ⟨he.symm, ht.1, by rw [← he]; exact (h.lineMatch hq _).mp ht.2⟩
    · cases he
  · cases he

theorem ss2_waits {s : State} (h : Excl s) {r : StResp} (hr : r ∈ s.ss2) (hw : r.replay.waits = true) : s.m.find (lineOf r.req.addr) = none := by
  unfold State.ss2 at hr
  obtain ⟨t, ht, he⟩ := List.mem_map.mp hr
  subst he
  exact (mem_ts h ht).waits hw

theorem ss2_fwd {s : State} (h : Excl s) : s.ss2.filterMap (fwdOf s.m.fillReq) = [] := by
  rw [List.filterMap_eq_nil_iff]
  intro r hr
  cases e : fwdOf s.m.fillReq r with
  | none => rfl
  | some x =>
    obtain ⟨h1, h2, h3⟩ := fwdOf_some h e
    have := ss2_waits h hr h2
    rw [← h1] at this
    obtain ⟨i, l, _, g2, _⟩ := h.holdFind h3
    rw [g2] at this; cases this

theorem fwds_eq {s : State} (h : Excl s) : s.fwds = s.pendSt.filterMap (fwdOf s.m.fillReq) := by
  unfold State.fwds State.ps; rw [List.filterMap_append, ss2_fwd h, List.append_nil]

theorem fwds_hold {s : State} (h : Excl s) {x : St} (hx : x ∈ s.fwds) : s.m.holdLine = some (lineOf x.addr) := by
  unfold State.fwds at hx
  obtain ⟨r, _, he⟩ := List.mem_filterMap.mp hx
  exact (fwdOf_some h he).2.2

theorem fwds_other {s : State} (h : Excl s) {X : BitVec 32} (hX : s.m.holdLine ≠ some X) : s.fwds.filter (fun r => lineOf r.addr = X) = [] := by
  rw [List.filter_eq_nil_iff]
  intro x hx he
  have := fwds_hold h hx
  rw [of_decide_eq_true he] at this
  exact hX this

/-- Nothing is forwarded while the fill is in the second stage. -/
theorem fwds_fill {s : Sys} (h : Inv s) {f : FillW} (hf : s.d.fill = some f) : s.d.fwds = [] := by
  rw [fwds_eq h.ex, List.filterMap_eq_nil_iff]
  intro r hr
  cases e : fwdOf s.d.m.fillReq r with
  | none => rfl
  | some x =>
    obtain ⟨h1, h2, h3⟩ := fwdOf_some h.ex e
    rw [fill_hold h hf] at h3
    injection h3 with h3
    exact absurd (by rw [h3, h1]) (h.pst r hr h2 f hf)

theorem fwds_same {s : State} (h : Excl s) {X : BitVec 32} (hX : s.m.holdLine = some X) : s.fwds.filter (fun r => lineOf r.addr = X) = s.fwds := by
  rw [List.filter_eq_self]
  intro x hx
  have := fwds_hold h hx
  rw [hX] at this
  injection this with this
  rw [this]; simp

theorem fwdFill_eq (rs : List StResp) : ∀ q : FillReq, fwdFill q rs =
    { q with data := (rs.filterMap (fwdOf (some q))).foldl Line.put q.data, dirty := q.dirty || !(rs.filterMap (fwdOf (some q))).isEmpty } := by
  induction rs with
  | nil => intro q; simp [fwdFill]
  | cons r rs ih =>
    intro q
    unfold fwdFill
    rw [List.foldl_cons]
    have hd : ∀ q' : FillReq, rs.foldl (fun q r => if fwdTakes q r then { q with data := q.data.put r.req, dirty := true } else q) q' = fwdFill q' rs := fun _ => rfl
    rw [hd, ih]
    have hc : ∀ q' : FillReq, q'.addr = q.addr → fwdOf (some q') = fwdOf (some q) := by
      intro q' ha; funext x; unfold fwdOf fwdTakes; dsimp only; rw [ha]
    by_cases c : fwdTakes q r = true
    · rw [if_pos c]
      have h1 : fwdOf (some q) r = some r.req := by unfold fwdOf; dsimp only; rw [if_pos c]
      rw [hc { q with data := q.data.put r.req, dirty := true } rfl, List.filterMap_cons, h1]
      simp
    · rw [if_neg c]
      have h1 : fwdOf (some q) r = none := by unfold fwdOf; dsimp only; rw [if_neg c]
      rw [List.filterMap_cons, h1]

theorem fold_reg (ms : List St) : ∀ b : FillW,
    ms.foldl (fun (b : FillW) r => { b with data := b.data.put r, dirty := true, touched := true }) b =
      { b with data := ms.foldl Line.put b.data, dirty := b.dirty || !ms.isEmpty, touched := b.touched || !ms.isEmpty } := by
  induction ms with
  | nil => intro b; simp
  | cons r rs ih => intro b; rw [List.foldl_cons, ih]; simp

/-- The fill register after the cycle. -/
inductive FillNext (s : State) : Option FillW → Prop
  | idle : s.m.holdLine = none → s.fill = none → s.fo = none → FillNext s none
  | written (f : FillW) : s.fill = some f → s.fo.isSome = true → s.regs = [] → FillNext s none
  | stay (f : FillW) : s.fill = some f → s.fo = none →
      FillNext s (some { f with data := s.regs.foldl Line.put f.data, dirty := f.dirty || !s.regs.isEmpty, touched := f.touched || !s.regs.isEmpty })
  | enter (q : FillReq) (t : Bool) : s.m.fillReq = some q → s.fill = none → s.fo = none → (t = false → s.fwds = [] ∧ s.regs = []) →
      (t = true → s.fwds ≠ [] ∨ s.regs ≠ []) →
      FillNext s (some
        { id := q.id, set := setOf q.addr, tag := tagOf q.addr, data := (s.fwds ++ s.regs).foldl Line.put q.data,
          dirty := q.dirty || !(s.fwds ++ s.regs).isEmpty, touched := t })

theorem any_filterMap {α β : Type} (f : α → Option β) (g : α → Bool) (h : ∀ a, g a = (f a).isSome) : ∀ l : List α, l.any g = !(l.filterMap f).isEmpty
  | [] => rfl
  | a :: l => by
    rw [List.any_cons, List.filterMap_cons, any_filterMap f g h l, h a]
    cases f a <;> simp

theorem fillNext {s : Sys} (h : Inv s) : FillNext s.d s.d.fill' := by
  unfold State.fill' nextFill
  cases hq : s.d.m.fillReq with
  | none =>
    have hl : s.d.m.holdLine = none := by rw [← fillReq_line, hq]; rfl
    have hf : s.d.fill = none := by
      cases hf : s.d.fill with
      | none => rfl
      | some f => rw [fill_hold h hf] at hl; cases hl
    have ho : s.d.fo = none := by unfold State.fo State.fs fillStep; rw [hf]; rfl
    exact .idle hl hf ho
  | some q =>
    dsimp only [Option.map_some]
    rw [sameInS2_eq h hq (by rw [fwdFill_eq])]
    have hfw : s.d.ps.filterMap (fwdOf (some q)) = s.d.fwds := by unfold State.fwds; rw [hq]
    cases hf : s.d.fill with
    | some f =>
      rw [if_pos (show (some f).isSome = true from rfl)]
      cases ho : s.d.fo with
      | some o =>
        refine .written f hf (by rw [ho]; rfl) ?_
        unfold State.regs
        rw [List.filterMap_eq_nil_iff]
        intro t ht
        rw [(mem_ts h.ex ht).reg, if_pos]
        exact ⟨by rw [inS2_eq h, hf]; rfl, by rw [← fo_isSome, ho]; rfl⟩
      | none =>
        dsimp only [Option.isSome]
        rw [if_neg (by decide)]
        dsimp only [Option.map_some]
        rw [fold_reg]
        exact .stay f hf ho
    | none =>
      rw [if_neg (by simp)]
      dsimp only [Option.map_some]
      rw [fold_reg, fwdFill_eq, hfw]
      have ho : s.d.fo = none := by unfold State.fo State.fs fillStep; rw [hf]; rfl
      have hany : s.d.fwd = !s.d.fwds.isEmpty := by
        unfold State.fwd State.fwds
        apply any_filterMap
        intro r
        unfold fwdOf
        rw [hq]
        dsimp only
        cases fwdTakes q r <;> rfl
      dsimp only
      have h1 : s.d.regs.foldl Line.put (s.d.fwds.foldl Line.put q.data) = (s.d.fwds ++ s.d.regs).foldl Line.put q.data := by rw [List.foldl_append]
      have h2 : (q.dirty || !s.d.fwds.isEmpty || !s.d.regs.isEmpty) = (q.dirty || !(s.d.fwds ++ s.d.regs).isEmpty) := by
        cases s.d.fwds <;> simp
      rw [h1, h2]
      refine .enter q _ hq hf ho ?_ ?_
      · rw [hany]; cases s.d.fwds <;> cases s.d.regs <;> simp
      · rw [hany]; cases s.d.fwds <;> cases s.d.regs <;> simp

end Verif.Dcache

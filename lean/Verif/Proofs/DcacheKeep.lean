import Verif.Proofs.DcacheStep

/-
The invariant is kept by a cycle of the data cache, and the loads it answers.
-/
namespace Verif.Dcache

/-- With the head under way, merges leave it alone. -/
theorem merge_head (b : Wb) (r : St) (hh : b.head < wbN) (hc : b.count ≤ wbN) (hs : b.send = true) (h0 : 0 < b.count) : (b.merge r).1.at 0 = b.at 0 := by
  unfold Wb.merge
  split
  · rfl
  · next c hf =>
    split
    · rfl
    · next hn =>
      rw [find_eq] at hf
      obtain ⟨h1, _⟩ := findIn_some hf
      unfold Wb.at
      dsimp only
      unfold upd
      rw [if_neg]
      intro he
      apply hn
      refine ⟨?_, h0, hs⟩
      rw [← he, Nat.add_zero, Nat.mod_eq_of_lt hh]

theorem mergeAll_head : ∀ (xs : List (St × Bool)) (b : Wb), b.head < wbN → b.count ≤ wbN → b.send = true → 0 < b.count → (mergeAll b xs).1.at 0 = b.at 0
  | [], _, _, _, _, _ => rfl
  | (r, rp) :: xs, b, hh, hc, hs, h0 => by
    unfold mergeAll
    dsimp only
    cases rp
    · simp only [Bool.false_eq_true, if_false]
      have hm := merge_same b r
      rw [mergeAll_head xs (b.merge r).1 (by rw [hm.1]; exact hh) (by rw [hm.2.1]; exact hc) (by rw [hm.2.2.1]; exact hs) (by rw [hm.2.1]; exact h0),
        merge_head b r hh hc hs h0]
    · exact mergeAll_head xs b hh hc hs h0

theorem push_al {b b' : Wb} {d : Option (BitVec 32 × Line)} (h : b.push d = some b') (hd : ∀ a l, d = some (a, l) → lineOf a = a)
    (hal : ∀ c, c < b.count → lineOf (b.at c).addr = (b.at c).addr) : ∀ c, c < b'.count → lineOf (b'.at c).addr = (b'.at c).addr := by
  cases d with
  | none => unfold Wb.push at h; injection h with h; rw [← h]; exact hal
  | some p =>
    obtain ⟨a, l⟩ := p
    unfold Wb.push at h
    dsimp only at h
    split at h
    · next hlt =>
      injection h with h
      rw [← h]
      intro c hc
      dsimp only at hc
      unfold Wb.at
      dsimp only
      unfold upd
      by_cases e : (b.head + c) % wbN = (b.head + b.count) % wbN
      · rw [if_pos e]; exact hd a l rfl
      · rw [if_neg e]
        apply hal
        have : c ≠ b.count := fun hcc => e (by rw [hcc])
        omega
    · cases h

theorem m1_ent_none {s : State} (hM : M1Facts s) (ho : s.fo = none) (i : Nat) : s.m1.ent i = s.m.ent i :=
  hM.ent i (fun hc => by rw [ho] at hc; cases hc)

/-- One cycle keeps the invariant. -/
theorem inv_next {s : Sys} (h : Inv s) (hack : ∀ w, s.wr = some w → w.acked = true) (slow : Bool) (ld : List Ld) (st : List St) {b : Wb}
    (hb : (mergeAll s.d.wb s.d.stores).1.push s.d.fs.2 = some b) : Inv { s with d := s.d.next slow ld st b } := by
  have hR := reqsStep h
  have hM := m1Facts h
  have hsame := mergeAll_same s.d.stores s.d.wb
  have hpk := push_keeps hb
  have hN := fillNext h
  have hfl := fun f => fill'_line (f := f) h
  -- the line of the completed fill
  have hfoline : ∀ o, s.d.fo = some o → s.d.m.holdLine = some (getAddr o.set o.tag) := by
    intro o ho
    obtain ⟨f, o0, _, hf, _, _, hs, ht, _⟩ := fo_some ho
    rw [fill_hold h hf]; unfold FillW.line; rw [hs, ht]
  -- where a line is found among the misses afterwards
  have hfind : ∀ X i, (s.d.reqs.foldl Mshr.request s.d.m1).find X = some i →
      lineOf X = X ∧ hitWay s.d.arr (setOf X) (tagOf X) = none ∧ s.d.wb.line X = none ∧ (s.d.fo.isSome = true → s.d.m.holdLine ≠ some X) := by
    intro X i hX
    have hal : lineOf X = X := by
      obtain ⟨g1, g2, g3⟩ := mfind_some hX
      rw [← g3]; exact hR.inv.al i g1 g2
    by_cases hq : ∃ q, q ∈ s.d.reqs ∧ X = lineOf q.addr
    · obtain ⟨q, hq, rfl⟩ := hq
      have := reqs_out h.ex hq
      rw [set_lineOf, tag_lineOf]
      exact ⟨hal, this.2.1, this.2.2, fun _ => this.1⟩
    · have h1 := hR.other X (fun q hq' he => hq ⟨q, hq', he⟩)
      rw [hX, hM.find] at h1
      split at h1
      · cases h1
      · next hc =>
        refine ⟨hal, ?_, h.ex.mw X i h1.symm, fun c1 c2 => hc ⟨c1, c2⟩⟩
        cases e : hitWay s.d.arr (setOf X) (tagOf X) with
        | none => rfl
        | some k =>
          have := (h.ex.cw X k e).2
          rw [hal, ← h1] at this; cases this
  constructor
  case ex =>
    constructor
    case arr => exact ainv3 h
    case m => exact hR.inv
    case hold =>
      intro i l hh
      have hh' : s.d.m1.hold = some (i, l) := by rw [← hR.hold]; exact hh
      rw [hM.hold] at hh'
      split at hh'
      · cases hh'
      · next hno =>
        have ho : s.d.fo = none := by cases e : s.d.fo with
          | none => rfl
          | some _ => rw [e] at hno; simp at hno
        obtain ⟨g1, g2, g3⟩ := h.ex.hold i l hh'
        have hk := hR.keep i g1 (by rw [m1_ent_none hM ho]; exact g2)
        refine ⟨g1, hk.1, ?_⟩
        have := hk.2.1
        rw [m1_ent_none hM ho, g3] at this
        exact this
    case wbc =>
      show b.count ≤ wbN
      rcases hpk.2.2.2.1 with c | c
      · rw [hsame.2.1] at c; exact Nat.le_trans c h.ex.wbc
      · exact c
    case cw =>
      intro X k hX
      have hX' : hitWay s.d.arr3 (setOf X) (tagOf X) = some k := hX
      -- either the filled line or a line that was cached and not evicted
      have hcase : (s.d.fo.isSome = true ∧ s.d.m.holdLine = some (lineOf X)) ∨
          (hitWay s.d.arr (setOf X) (tagOf X) = some k ∧ ∀ o, s.d.fo = some o → ¬ (setOf X = o.set ∧ k = o.way)) := by
        cases ho : s.d.fo with
        | none =>
          rw [arr3_none ho, hit2] at hX'
          exact Or.inr ⟨hX', fun o hc => by cases hc⟩
        | some o =>
          rw [hit3 h ho] at hX'
          split at hX'
          · next hc =>
            refine Or.inl ⟨rfl, ?_⟩
            rw [hfoline o ho, ← hc.1, ← hc.2]; rfl
          · split at hX'
            · cases hX'
            · next hc =>
              refine Or.inr ⟨hX', fun o' ho' hc' => hc ?_⟩
              injection ho' with ho'
              subst ho'
              exact ⟨hc'.1, by rw [hX', hc'.2]⟩
      have hline : lineOf (lineOf X) = lineOf X := lineOf_idem X
      have hb' : b.line (lineOf X) = none := by
        rcases hcase with ⟨c1, c2⟩ | ⟨c1, c2⟩
        · obtain ⟨g1, g2⟩ := hold_out h c2
          rw [b_line h.ex hb (evict_ne h.ex g1), g2]; rfl
        · rw [b_line h.ex hb ?_, (h.ex.cw X k c1).1]
          · rfl
          · rintro a l he rfl
            obtain ⟨o, e1, e2, e3, _⟩ := evict_cached h.ex.arr he
            rw [set_lineOf] at e2 e3
            rw [tag_lineOf, c1] at e2
            injection e2 with e2
            exact c2 o e1 ⟨e3, e2⟩
      refine ⟨hb', ?_⟩
      cases e : (s.d.next slow ld st b).m.find (lineOf X) with
      | none => rfl
      | some i =>
        exfalso
        obtain ⟨_, g2, _, g4⟩ := hfind (lineOf X) i e
        rw [set_lineOf, tag_lineOf] at g2
        rcases hcase with ⟨c1, c2⟩ | ⟨c1, c2⟩
        · exact g4 c1 c2
        · rw [g2] at c1; cases c1
    case mw =>
      intro X i hX
      obtain ⟨_, g2, g3, _⟩ := hfind X i hX
      show b.line X = none
      rw [b_line h.ex hb (evict_ne h.ex g2), g3]; rfl
  case head => show b.head < wbN; rw [hpk.1, hsame.1]; exact h.head
  case al =>
    refine push_al hb ?_ ?_
    · intro a l he
      obtain ⟨_, _, _, _, _, g⟩ := evict_cached h.ex.arr he
      exact g
    · intro c hc
      rw [hsame.at]; rw [hsame.2.1] at hc; exact h.al c hc
  case wr =>
    intro w hw
    obtain ⟨w1, w2, w3, w4, w5⟩ := h.wr w hw
    have hsend : s.d.wb.send = true := by rw [← w4]; exact hack w hw
    have hat : b.at 0 = s.d.wb.at 0 := by
      rw [hpk.2.2.2.2 (by rw [hsame.2.1]; exact w1), mergeAll_head _ _ h.head h.ex.wbc hsend w1]
    refine ⟨?_, ?_, ?_, ?_, w5⟩
    · show 0 < b.count
      have := hpk.2.2.1; rw [hsame.2.1] at this; omega
    · show w.addr = (b.at 0).addr; rw [hat]; exact w2
    · show w.data = (b.at 0).data; rw [hat]; exact w3
    · show w.acked = b.send; rw [hpk.2.1, hsame.2.2.1]; exact w4
  case idle => intro hw; show b.send = false; rw [hpk.2.1, hsame.2.2.1]; exact h.idle hw
  case rd =>
    intro i r hr
    obtain ⟨r1, r2, r3, r4, r5, r6⟩ := h.rd i r hr
    have he : s.d.m1.ent i = s.d.m.ent i := hM.ent i (fun _ l => r6 l)
    have hk := hR.keep i r1 (by rw [he]; exact r2)
    refine ⟨r1, hk.1, ?_, ?_, r5, ?_⟩
    · rw [r3, ← he]; exact hk.2.2.symm
    · rw [r4, ← he]; exact hk.2.1.symm
    · intro l hh
      have hh' : s.d.m1.hold = some (i, l) := by rw [← hR.hold]; exact hh
      rw [hM.hold] at hh'
      split at hh'
      · cases hh'
      · exact r6 l hh'
  case rd1 => exact h.rd1
  case hold =>
    intro i l hh
    have hh' : s.d.m1.hold = some (i, l) := by rw [← hR.hold]; exact hh
    rw [hM.hold] at hh'
    split at hh'
    · cases hh'
    · next hno =>
      have ho : s.d.fo = none := by cases e : s.d.fo with
        | none => rfl
        | some _ => rw [e] at hno; simp at hno
      obtain ⟨g1, g2, g3⟩ := h.ex.hold i l hh'
      have hk := (hR.keep i g1 (by rw [m1_ent_none hM ho]; exact g2)).2.2
      rw [m1_ent_none hM ho] at hk
      show l = s.mem ((s.d.reqs.foldl Mshr.request s.d.m1).ent i).addr
      rw [hk]; exact h.hold i l hh'
  case clean =>
    intro S k hk hv hd
    have h2 : s.d.arr2.valid S k = true → s.d.arr2.dirty S k = false → s.d.arr2.data S k = s.mem (getAddr S (s.d.arr2.tag S k)) := by
      intro a1 a2
      obtain ⟨k1, k2, k3, k4⟩ := arr2_keeps s.d
      rw [k1] at a1
      rw [k4, Bool.or_eq_false_iff] at a2
      rw [k3, k2]
      have : (s.d.ts.filterMap fun t => t.2.2.bind (StEff.at? S k)) = [] := by
        have := a2.2
        cases e : (s.d.ts.filterMap fun t => t.2.2.bind (StEff.at? S k)) with
        | nil => rfl
        | cons => rw [e] at this; simp at this
      rw [this]
      exact h.clean S k hk a1 a2.1
    have hv' : s.d.arr3.valid S k = true := hv
    have hd' : s.d.arr3.dirty S k = false := hd
    show s.d.arr3.data S k = s.mem (getAddr S (s.d.arr3.tag S k))
    cases ho : s.d.fo with
    | none => rw [arr3_none ho] at hv' hd' ⊢; exact h2 hv' hd'
    | some o =>
      obtain ⟨e1, e2, e3, e4⟩ := arr3_some h ho
      rw [e1] at hv'
      rw [e4] at hd'
      rw [e2, e3]
      unfold upd2 at hv' hd' ⊢
      by_cases c : S = o.set ∧ k = o.way
      · rw [if_pos c] at hd' ⊢
        rw [if_pos c]
        obtain ⟨f, o0, _, hf, _, _, hs, ht, _, hdat, hdir, _⟩ := fo_some ho
        obtain ⟨d1, d2⟩ := hdir hd'
        rw [hdat, d2, List.foldl_nil]
        obtain ⟨l, f1, f2, f3, f4⟩ := h.fill f hf
        have ht0 : f.touched = false := by
          cases e : f.touched with
          | false => rfl
          | true => rw [f4 e] at d1; cases d1
        obtain ⟨f5, f6⟩ := f3 ht0
        obtain ⟨g1, g2, _⟩ := h.ex.hold _ _ f1
        rw [f5, over_clean (h.ex.m.clean _ g1 g2 (by rw [← f6]; exact d1)), h.hold _ _ f1, f2, c.1, hs, ht]
        rfl
      · rw [if_neg c] at hv' hd' ⊢
        rw [if_neg c]
        rw [← (arr2_keeps s.d).1] at hv'
        rw [← (arr2_keeps s.d).2.1]
        exact h2 hv' hd'
  case fill =>
    intro f hf
    have hf' : s.d.fill' = some f := hf
    have hl0 := hfl f hf'
    have hho : ∀ i l, s.d.m.hold = some (i, l) → s.d.fo = none →
        (s.d.reqs.foldl Mshr.request s.d.m1).hold = some (i, l) ∧ (s.d.reqs.foldl Mshr.request s.d.m1).ent i = s.d.m.ent i := by
      intro i l hi ho
      obtain ⟨g1, g2, _⟩ := h.ex.hold i l hi
      refine ⟨by rw [hR.hold, hM.hold, ho]; simpa using hi, ?_⟩
      rw [hR.same i g1 (by rw [m1_ent_none hM ho]; exact g2) ?_, m1_ent_none hM ho]
      intro q hq he
      apply (reqs_out h.ex hq).1
      unfold Mshr.holdLine
      rw [hi, ← he, m1_ent_none hM ho]; rfl
    rw [hf'] at hN
    cases hN with
    | stay g hg ho =>
      obtain ⟨l, f1, f2, f3, f4⟩ := h.fill g hg
      obtain ⟨h1, h2⟩ := hho _ _ f1 ho
      refine ⟨l, h1, ?_, ?_, ?_⟩
      · show ((s.d.reqs.foldl Mshr.request s.d.m1).ent g.id).addr = g.line
        rw [h2]; exact f2
      · intro ht
        dsimp only at ht
        rw [Bool.or_eq_false_iff] at ht
        have hr : s.d.regs = [] := by
          have := ht.2
          cases e : s.d.regs with
          | nil => rfl
          | cons => rw [e] at this; simp at this
        obtain ⟨f5, f6⟩ := f3 ht.1
        show _ = ((s.d.reqs.foldl Mshr.request s.d.m1).ent g.id).over l ∧ _ = ((s.d.reqs.foldl Mshr.request s.d.m1).ent g.id).dirty
        rw [h2, hr]
        exact ⟨f5, by rw [← f6]; simp⟩
      · intro ht
        dsimp only at ht ⊢
        rw [Bool.or_eq_true] at ht ⊢
        rcases ht with ht | ht
        · exact Or.inl (f4 ht)
        · exact Or.inr ht
    | enter q t hq hfi ho ht1 ht2 =>
      obtain ⟨l, g1, g2, g3, g4⟩ := fillReq_some hq
      obtain ⟨h1, h2⟩ := hho _ _ g1 ho
      refine ⟨l, h1, ?_, ?_, ?_⟩
      · show ((s.d.reqs.foldl Mshr.request s.d.m1).ent q.id).addr = _
        rw [h2, ← g2]
        rw [← fillReq_line, hq] at hl0
        injection hl0
      · intro ht
        obtain ⟨a1, a2⟩ := ht1 ht
        show _ = ((s.d.reqs.foldl Mshr.request s.d.m1).ent q.id).over l ∧ _ = ((s.d.reqs.foldl Mshr.request s.d.m1).ent q.id).dirty
        rw [h2, a1, a2]
        exact ⟨g3, by rw [← g4]; simp⟩
      · intro ht
        dsimp only
        rcases ht2 ht with c | c
        · cases e : s.d.fwds with
          | nil => exact absurd e c
          | cons => simp
        · cases e : s.d.regs with
          | nil => exact absurd e c
          | cons => simp
  case pend =>
    intro hne
    cases slow with
    | true => exact ⟨rfl, rfl⟩
    | false => rcases hne with hne | hne <;> exact absurd rfl hne
  case pst =>
    intro r hr hw f hf
    cases slow with
    | true => cases hr
    | false =>
      have hr' : r ∈ s.d.ss' := hr
      have hl0 := hfl f hf
      intro hc
      unfold State.ss' at hr'
      obtain ⟨r0, _, he⟩ := List.mem_map.mp hr'
      unfold fwdStore at he
      cases hq : s.d.m.fillReq with
      | none => rw [← fillReq_line, hq] at hl0; cases hl0
      | some q =>
        rw [hq] at he
        dsimp only at he
        split at he
        · rw [← he] at hw; cases hw
        · next hnt =>
          subst he
          apply hnt
          unfold fwdTakes
          rw [hw, Bool.true_and]
          exact (h.ex.lineMatch hq _).mpr (by rw [hl0, hc])

/-- A load answered in this cycle, not from a fill that had taken in a store, returns the contents of the
line before the cycle's stores. -/
def LoadOk (s : Sys) (r : LdResp) : Prop := r.replay = .hit → r.late = false → r.data = s.d.view s.mem (lineOf r.req.addr) (wordOf r.req.addr)

theorem view_wb {s : Sys} (h : Inv s) {X : BitVec 32} (_hl : lineOf X = X) {l : Line} (hw : s.d.wb.line X = some l) : s.d.view s.mem X = l := by
  unfold State.view
  cases e : hitWay s.d.arr (setOf X) (tagOf X) with
  | some k => have := (h.ex.cw X k e).1; rw [_hl, hw] at this; cases this
  | none => dsimp only; rw [hw]

/-- Loads in stage 2. -/
theorem load_stage {s : Sys} (h : Inv s) {r : LdResp} (hr : r ∈ s.d.ls.1) : LoadOk s r := by
  intro hh _
  unfold State.ls at hr
  rw [(loadsStep_eq s.d s.d.loads _).1] at hr
  obtain ⟨t, ht, he⟩ := List.mem_map.mp hr
  subst he
  rcases (loadFacts ht).hit hh with ⟨l, h1, h2⟩ | ⟨k, h1, h2⟩
  · rw [view_wb h (lineOf_idem _) h1, h2]
  · unfold State.view
    rw [set_lineOf, tag_lineOf, h1, h2]

/-- Loads answered from the fill. -/
theorem load_fwd {s : Sys} (h : Inv s) {r : LdResp} {q : FillReq} (hq : s.d.m.fillReq = some q) (hm : lineMatch r.req.addr q.addr = true)
    (ht : s.d.touched = false) : q.data = s.d.view s.mem (lineOf r.req.addr) := by
  have hh := (h.ex.lineMatch hq _).mp hm
  obtain ⟨h1, h2⟩ := hold_out h hh
  obtain ⟨l, g1, g2, g3, _⟩ := fillReq_some hq
  have ha : q.addr = lineOf r.req.addr := by rw [← fillReq_line, hq] at hh; injection hh
  have hfi : s.d.m.find (lineOf r.req.addr) = some q.id := mfind_eq h.ex.m (h.ex.hold _ _ g1).1 (h.ex.hold _ _ g1).2.1 (by rw [← g2, ha])
  have hmv : s.d.m.view (lineOf r.req.addr) (s.mem (lineOf r.req.addr)) = q.data := by
    unfold Mshr.view
    rw [hfi, g3, h.hold _ _ g1, ← g2, ha]
  unfold State.view
  rw [h1]
  dsimp only
  rw [h2]
  dsimp only
  cases hf : s.d.fill with
  | none => exact hmv.symm
  | some f =>
    dsimp only
    have ht' : f.touched = false := by unfold State.touched at ht; rw [hf] at ht; exact ht
    obtain ⟨l', f1, f2, f3, _⟩ := h.fill f hf
    rw [g1] at f1
    injection f1 with f1
    injection f1 with f1 f1'
    rw [if_pos (by rw [← f2, ← f1, ← g2, ha]), (f3 ht').1, g3, ← f1, f1']

theorem rs'_mem {s : Sys} (h : Inv s) {r : LdResp} (hr : r ∈ s.d.rs') : r ∈ s.d.pendLd ∨ LoadOk s r := by
  unfold State.rs' at hr
  obtain ⟨r0, h0, he⟩ := List.mem_map.mp hr
  unfold fwdLoad at he
  have hcase : r0 ∈ s.d.pendLd ∨ LoadOk s r0 := by
    unfold State.pl at h0
    rcases List.mem_append.mp h0 with h0 | h0
    · exact Or.inl h0
    · exact Or.inr (load_stage h h0)
  cases hq : s.d.m.fillReq with
  | none => rw [hq] at he; dsimp only at he; subst he; exact hcase
  | some q =>
    rw [hq] at he
    dsimp only at he
    split at he
    · next hc =>
      rw [Bool.and_eq_true] at hc
      subst he
      right
      intro _ hlate
      dsimp only at hlate ⊢
      rw [← load_fwd h hq hc.2 hlate]
    · subst he; exact hcase

end Verif.Dcache

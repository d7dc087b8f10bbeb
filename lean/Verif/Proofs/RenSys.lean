import Verif.Proofs.Ren
/- The invariant holds in every reachable state of the closed rename system. -/
namespace Verif.Proofs.Ren
open Verif.Ring Verif.Ren Verif.RenWindow

variable {P A N : Nat}

structure SInv (P A N : Nat) (s : Sys) : Prop where
  regs : RInv P A N s.regs s.win
  wf : ∀ d, some d ∈ s.insts → WfInst A N d
  tags : (slotTags s.insts).Nodup
  fresh : ∀ t ∈ slotTags s.insts, ∀ e ∈ s.win, e.tag ≠ some t
  hist : ∀ a, a < A → s.regs.arch a = mapAfter s.hist a

theorem allocLoop_length (fl) : ∀ (is : List (Option Inst)) h c, (allocLoop P fl h c is).length = is.length
  | [], _, _ => rfl
  | none :: is, h, c => by simp [allocLoop, allocLoop_length fl is]
  | some i :: is, h, c => by
    rw [allocLoop]; split <;> simp [allocLoop_length fl is]

theorem validLoop_length : ∀ (is : List (Option Inst)) as st, as.length = is.length →
    (validLoop st is as).length = is.length
  | [], [], _, _ => by simp [validLoop]
  | none :: is, a :: as, st, h => by
    simp only [validLoop, List.length_cons] at h ⊢
    rw [validLoop_length is as st (by omega)]
  | some i :: is, (v, x) :: as, st, h => by
    simp only [List.length_cons] at h
    have := fun st => validLoop_length is as st (by omega)
    rw [validLoop]; split
    · simp [this]
    · split <;> simp [this]

theorem renameLoop_inst (spec) : ∀ (is : List (Option Inst)) prior as vs,
    as.length = is.length → vs.length = is.length →
    (renameLoop spec prior is as vs).map Slot.inst = is
  | [], _, _, _, _, _ => by simp [renameLoop]
  | i :: is, prior, (a, r) :: as, v :: vs, h1, h2 => by
    simp only [List.length_cons] at h1 h2
    rw [renameLoop, List.map_cons, renameLoop_inst spec is _ as vs (by omega) (by omega)]

theorem renameGroup_inst (R is) : (renameGroup P R is).map Slot.inst = is :=
  renameLoop_inst _ _ _ _ _ (allocLoop_length _ _ _ _)
    (validLoop_length _ _ _ (allocLoop_length _ _ _ _))

theorem slotTags_cons (o is) : slotTags (o :: is) =
    (o.bind (fun i => if i.isBr then some i.brId else none)).toList ++ slotTags is := by
  rw [slotTags, List.filterMap_cons]
  cases (o.bind fun i => if i.isBr then some i.brId else none) <;> rfl

/-- Tags of fired slots are tags of slots. -/
theorem entryTags_sublist : ∀ (slots : List Slot),
    (entryTags (entries slots)).Sublist (slotTags (slots.map Slot.inst))
  | [] => List.Sublist.refl _
  | sl :: r => by
    rw [entries_cons, List.map_cons, slotTags_cons, entryTags, List.filterMap_append]
    refine List.Sublist.append ?_ (entryTags_sublist r)
    rw [toEntry]
    cases hi : sl.inst with
    | none => exact List.Sublist.refl _
    | some i =>
      simp only [Option.bind_some]
      cases sl.valid
      · simp
      · cases i.isBr <;> simp

theorem entry_tag_mem {slots : List Slot} {e t} (he : e ∈ entries slots) (ht : e.tag = some t) :
    t ∈ slotTags (slots.map Slot.inst) :=
  (entryTags_sublist slots).subset (List.mem_filterMap.2 ⟨e, he, ht⟩)

/-- Slots that do not fire keep their tags, which differ from those of the slots that do. -/
theorem remaining (slots : List Slot) :
    (slotTags (slots.map (fun sl => if sl.valid then none else sl.inst))).Sublist
      (slotTags (slots.map Slot.inst)) := by
  induction slots with
  | nil => exact List.Sublist.refl _
  | cons sl r ih =>
    rw [List.map_cons, List.map_cons, slotTags_cons, slotTags_cons]
    refine List.Sublist.append ?_ ih
    cases sl.valid <;> simp

theorem remaining_disjoint : ∀ (slots : List Slot), (slotTags (slots.map Slot.inst)).Nodup →
    ∀ t ∈ slotTags (slots.map (fun sl => if sl.valid then none else sl.inst)),
      ∀ e ∈ entries slots, e.tag ≠ some t
  | [], _, t, ht, _, _ => by simp [slotTags] at ht
  | sl :: r, hn, t, ht, e, he => by
    rw [List.map_cons, slotTags_cons] at hn ht
    rw [entries_cons] at he
    obtain ⟨n1, n2, n3⟩ := List.nodup_append.1 hn
    have ih := remaining_disjoint r n2
    rcases List.mem_append.1 ht with ht | ht
    · -- the unfired head owns `t`
      have hv : sl.valid = false := by
        cases hv : sl.valid with
        | false => rfl
        | true => rw [hv] at ht; simp at ht
      rw [hv] at ht
      simp only [Bool.false_eq_true, if_false] at ht
      have hte : toEntry sl = none := by rw [toEntry]; cases sl.inst <;> simp [hv]
      rw [hte] at he
      simp only [Option.toList_none, List.nil_append] at he
      exact fun h' => n3 t ht t (entry_tag_mem he h') rfl
    · rcases List.mem_append.1 he with he | he
      · intro h'
        have htm : t ∈ slotTags (r.map Slot.inst) := (remaining r).subset ht
        rw [toEntry] at he
        cases hi : sl.inst with
        | none => simp [hi] at he
        | some i =>
          rw [hi] at he n3
          cases hv : sl.valid with
          | false => simp [hv] at he
          | true =>
            simp only [hv, if_true, Option.toList_some, List.mem_singleton] at he
            subst he
            have h2 : (if i.isBr = true then some i.brId else none) = some t := h'
            refine n3 t ?_ t htm rfl
            simp only [Option.bind_some, h2, Option.toList_some, List.mem_singleton]
      · exact ih t ht e he

theorem good_group {s : Sys} (h : SInv P A N s) :
    Good P A N s.regs.fl s.regs.spec s.regs.head (ringDist P s.regs.head s.regs.tail)
      (renameGroup P s.regs s.insts) :=
  rename_good _ _ _ _ _ _ _ (fun _ => rfl) h.wf

/-- Registers and window after the fire loop. -/
theorem sinv_fire (hA : 0 < A) {s : Sys} (h : SInv P A N s) (ready : Bool) :
    RInv P A N ((renameGroup P s.regs s.insts).foldl (fireOne P N ready) s.regs)
      (s.win ++ if ready then entries (renameGroup P s.regs s.insts) else []) := by
  cases ready with
  | false => rw [fire_not_ready]; simpa using h.regs
  | true =>
    refine rinv_fireAll hA _ _ _ h.regs (good_group h) ?_ ?_
    · intro e he t ht x hx
      have := entry_tag_mem he ht
      rw [renameGroup_inst] at this
      exact h.fresh t this x hx
    · have := entryTags_sublist (renameGroup P s.regs s.insts)
      rw [renameGroup_inst] at this
      exact List.Sublist.nodup this h.tags

/-- The fire loop leaves everything but the map, the head and the checkpoints alone. -/
theorem fire_frame (ready : Bool) : ∀ (slots : List Slot) R,
    (slots.foldl (fireOne P N ready) R).arch = R.arch ∧ (slots.foldl (fireOne P N ready) R).fl = R.fl ∧
    (slots.foldl (fireOne P N ready) R).hc = R.hc ∧ (slots.foldl (fireOne P N ready) R).tail = R.tail
  | [], R => ⟨rfl, rfl, rfl, rfl⟩
  | sl :: r, R => by
    obtain ⟨h1, h2, h3, h4⟩ := fire_frame ready r (fireOne P N ready R sl)
    have : (fireOne P N ready R sl).arch = R.arch ∧ (fireOne P N ready R sl).fl = R.fl ∧
        (fireOne P N ready R sl).hc = R.hc ∧ (fireOne P N ready R sl).tail = R.tail := by
      rw [fireOne]
      cases sl.inst with
      | none => exact ⟨rfl, rfl, rfl, rfl⟩
      | some i =>
        simp only
        cases fires ready sl && i.destEn <;> cases fires ready sl && i.isBr <;> exact ⟨rfl, rfl, rfl, rfl⟩
    exact ⟨h1.trans this.1, h2.trans this.2.1, h3.trans this.2.2.1, h4.trans this.2.2.2⟩

/-- The checkpoints of tags that do not occur in the slots are kept. -/
theorem fire_ck (ready : Bool) {t : Nat} : ∀ (slots : List Slot) R, t ∉ slotTags (slots.map Slot.inst) →
    (slots.foldl (fireOne P N ready) R).ck t = R.ck t ∧
    (slots.foldl (fireOne P N ready) R).ckHead t = R.ckHead t
  | [], R, _ => ⟨rfl, rfl⟩
  | sl :: r, R, hn => by
    rw [List.map_cons, slotTags_cons, List.mem_append, not_or] at hn
    obtain ⟨h1, h2⟩ := fire_ck ready r (fireOne P N ready R sl) hn.2
    have : (fireOne P N ready R sl).ck t = R.ck t ∧ (fireOne P N ready R sl).ckHead t = R.ckHead t := by
      rw [fireOne]
      cases hi : sl.inst with
      | none => exact ⟨rfl, rfl⟩
      | some i =>
        simp only
        rw [hi] at hn
        have hne : i.isBr = true → t ≠ i.brId := by
          intro hb h'; apply hn.1; simp [hb, h']
        cases hf1 : fires ready sl && i.destEn <;> cases hf : fires ready sl && i.isBr <;>
          simp only [Bool.false_eq_true, if_false, if_true, and_self]
        all_goals
          have hb : i.isBr = true := by simp only [Bool.and_eq_true] at hf; exact hf.2
          have := hne hb
          simp [upd, this]
    exact ⟨h1.trans this.1, h2.trans this.2⟩

theorem regs_ok (hA : 0 < A) {R w} (h : RInv P A N R w) :
    { R with ok := R.ok && sanity P A R.head R.hc R.tail } = R := by
  rw [rinv_sanity hA h, Bool.and_true]

theorem regs_step (hA : 0 < A) {s : Sys} (h : SInv P A N s) {i : Input} (v : Valid P A N s i) :
    RInv P A N (stepSys P A N s i).regs (stepSys P A N s i).win ∧
    (stepSys P A N s i).regs.arch
      = applyAll s.regs.arch (if i.exc || i.interrupt then [] else s.win.take i.retire) := by
  have hfire := sinv_fire hA h i.ready
  have hfr := fire_frame (P := P) (N := N) i.ready (renameGroup P s.regs s.insts) s.regs
  have hck := fun t => fire_ck (P := P) (N := N) (t := t) i.ready (renameGroup P s.regs s.insts) s.regs
  simp only [stepSys, combFire]
  rw [regs_ok hA h.regs]
  generalize hR1 : (renameGroup P s.regs s.insts).foldl (fireOne P N i.ready) s.regs = R1 at *
  -- commit
  have hcommit : (i.flush = true → ∃ w', RInv P A N
        (((s.win.take i.retire).map (toCommit i.exc)).foldl (commitOne P i.interrupt) R1) w') ∧
      (i.flush = false → RInv P A N
        (((s.win.take i.retire).map (toCommit i.exc)).foldl (commitOne P i.interrupt) R1)
        (s.win.drop i.retire ++ if i.ready then entries (renameGroup P s.regs s.insts) else [])) ∧
      (((s.win.take i.retire).map (toCommit i.exc)).foldl (commitOne P i.interrupt) R1).arch =
        applyAll s.regs.arch (if i.exc || i.interrupt then [] else s.win.take i.retire) := by
    by_cases hs : i.exc = true ∨ i.interrupt = true
    · rw [commit_skip _ _ hs]
      have hb : (i.exc || i.interrupt) = true := by rcases hs with h' | h' <;> simp [h']
      refine ⟨fun _ => ⟨_, hfire⟩, fun hf => ?_, ?_⟩
      · rw [v.exc hs] at hf; cases hf
      · rw [if_pos hb, hfr.1]; rfl
    · have h1 : i.exc = false := by cases hx : i.exc <;> simp [hx] at hs ⊢
      have h2 : i.interrupt = false := by cases hx : i.interrupt <;> simp [hx] at hs ⊢
      rw [h1, h2]
      have := rinv_commitAll hA (s.win.take i.retire)
        (s.win.drop i.retire ++ if i.ready then entries (renameGroup P s.regs s.insts) else []) R1
        (by rw [← List.append_assoc, List.take_append_drop]; exact hfire)
      refine ⟨fun _ => ⟨_, this.1⟩, fun _ => this.1, ?_⟩
      rw [this.2, hfr.1]; rfl
  obtain ⟨c1, c2, c3⟩ := hcommit
  generalize hR2 : ((s.win.take i.retire).map (toCommit i.exc)).foldl (commitOne P i.interrupt) R1 = R2 at *
  by_cases hf : i.flush = true
  · obtain ⟨w', hw'⟩ := c1 hf
    have hr := rinv_flush hw'
    simp only [recover, hf, if_true]
    refine ⟨?_, c3⟩
    have := regs_ok hA hr
    simp only at this
    rw [this]; exact hr
  · have hf' : i.flush = false := by simpa using hf
    have hR := c2 hf'
    cases hm : i.mispred with
    | none =>
      simp only [recover, hf', Bool.false_eq_true, if_false]
      refine ⟨?_, c3⟩
      rw [regs_ok hA hR]
      exact rinv_survive _ hR
    | some t =>
      obtain ⟨m1, _, m3⟩ := v.mispred t hm
      have hR2' : R2 = R1 := by rw [← hR2, m1]; rfl
      obtain ⟨t0, tN, _, _⟩ := chain_upTo h.regs.hcLt m3 h.regs.chain
      have hinv := rinv_mispred h.regs m3 (ck := R1.ck) (ckh := R1.ckHead) (fun e he u hu => by
        refine hck u ?_
        rw [renameGroup_inst]
        intro hmem
        have hex := upTo_append_after m3
        exact h.fresh u hmem e (by rw [hex]; exact List.mem_append_left _ he) hu)
      have hok : R1.ok = true := hfire.ok
      have ht0 : t ≠ 0 := by omega
      simp only [recover, hf', Bool.false_eq_true, if_false]
      rw [hR2'] at c3 ⊢
      refine ⟨?_, c3⟩
      have hs : sanity P A (s.regs.ckHead t) s.regs.hc s.regs.tail = true := rinv_sanity hA hinv
      rw [hfr.1, hfr.2.1, hfr.2.2.1, hs, hok, ← h.regs.ok]
      simp only [tN, ht0, decide_true, Bool.and_true, ne_eq, not_false_eq_true, Bool.and_self]
      exact rinv_survive _ hinv

theorem mapAfter_append (l r : List Entry) (a : Nat) (m : Nat → Nat) (hm : m a = mapAfter l a) :
    applyAll m r a = mapAfter (l ++ r) a := by
  have : ∀ l a, mapAfter l a = applyAll id l a := fun l a => by rw [applyAll_eq]; rfl
  rw [this, applyAll_append, applyAll_eq, applyAll_eq, hm, this]

theorem sinv_step (hA : 0 < A) {s : Sys} (h : SInv P A N s) {i : Input} (v : Valid P A N s i) :
    SInv P A N (stepSys P A N s i) := by
  obtain ⟨h1, h2⟩ := regs_step hA h v
  have hhist : ∀ a, a < A → (stepSys P A N s i).regs.arch a = mapAfter (stepSys P A N s i).hist a := by
    intro a ha
    rw [h2]
    exact mapAfter_append _ _ _ _ (h.hist a ha)
  have hnone : ∀ (slots : List Slot), slotTags (slots.map fun _ => none) = [] := by
    intro slots; induction slots with
    | nil => rfl
    | cons _ _ ih => rw [List.map_cons, slotTags_cons, ih]; rfl
  -- the slot latches
  have hinsts : (stepSys P A N s i).insts =
      combPipeline (renameGroup P s.regs s.insts) i.dec i.ready i.flush i.mispred := rfl
  refine ⟨h1, ?_, ?_, ?_, hhist⟩
  · intro d hd
    rw [hinsts, combPipeline] at hd
    split at hd
    · simp at hd
    · split at hd
      · exact v.wf d hd
      · obtain ⟨sl, hsl, he⟩ := List.mem_map.1 hd
        refine h.wf d ?_
        split at he
        · cases he
        · rw [← renameGroup_inst (P := P) s.regs s.insts]
          exact List.mem_map.2 ⟨sl, hsl, he⟩
  · rw [hinsts, combPipeline]
    split
    · rw [hnone]; exact List.nodup_nil
    · split
      · exact v.tags
      · have hn := h.tags
        rw [← renameGroup_inst (P := P) s.regs s.insts] at hn
        cases i.ready with
        | false => simpa [fires] using hn
        | true =>
          have := List.Sublist.nodup (remaining (renameGroup P s.regs s.insts)) hn
          simpa [fires] using this
  · intro t ht
    rw [hinsts, combPipeline] at ht
    split at ht
    · rw [hnone] at ht; cases ht
    · rename_i hfm
      have hf : i.flush = false := by cases hx : i.flush <;> simp [hx] at hfm ⊢
      have hm : i.mispred = none := by cases hx : i.mispred <;> simp [hx] at hfm ⊢
      split at ht
      · exact v.fresh t ht
      · intro e he htag
        simp only [stepSys, hf, hm, Bool.false_eq_true, if_false] at he
        obtain ⟨e', he', rfl⟩ := List.mem_map.1 he
        rw [survive, Option.filter_eq_some_iff] at htag
        have htag := htag.1
        have hn := h.tags
        have hfresh := h.fresh
        rw [← renameGroup_inst (P := P) s.regs s.insts] at hn hfresh
        cases hr : i.ready with
        | false =>
          simp only [hr, Bool.false_eq_true, if_false, List.append_nil, fires, Bool.and_false] at he' ht
          exact hfresh t ht e' (List.mem_of_mem_drop he') htag
        | true =>
          simp only [hr, if_true, fires, Bool.and_true] at he' ht
          rcases List.mem_append.1 he' with he' | he'
          · exact hfresh t ((remaining _).subset ht) e' (List.mem_of_mem_drop he') htag
          · exact remaining_disjoint _ hn t ht e' he' htag

theorem ring_init (v : Nat) : ∀ n h, h + n ≤ P - A → n + h < P →
    ring P (fun k => if k < P - A then A + k else v) h n = (List.range n).map (fun k => A + h + k)
  | 0, _, _, _ => rfl
  | n + 1, h, h1, h2 => by
    rw [ring, if_pos (by omega), List.range_succ_eq_map, List.map_cons, List.map_map]
    congr 1
    have hi : inc P h = h + 1 ∨ n = 0 := by
      by_cases hn : n = 0
      · right; exact hn
      · left; rw [inc]; exact Nat.mod_eq_of_lt (by omega)
    rcases hi with hi | rfl
    · rw [hi, ring_init v n (h + 1) (by omega) (by omega)]
      apply List.map_congr_left; intro k _; simp; omega
    · rfl

theorem sinv_init (hA : 0 < A) (hAP : A ≤ P) (w : Nat) :
    SInv P A N ⟨init P A, List.replicate w none, [], []⟩ := by
  have hns : ∀ w, slotTags (List.replicate w none) = [] := by
    intro w; induction w with
    | zero => rfl
    | succ w ih => rw [List.replicate_succ, slotTags_cons, ih]; rfl
  have pre : RInv P A N { init P A with ok := true } [] := by
    refine ⟨by show 0 < P; omega, by show 0 = _; simp [pregs, init], ?_, by simp [pregs], rfl, trivial, rfl, ?_,
      by show (if 0 < A then 0 else 0) = 0; simp, rfl⟩
    · show P - A = (0 + (P - A)) % P
      rw [Nat.zero_add, Nat.mod_eq_of_lt (by omega)]
    · show (List.map (fun i => if i < A then i else 0) (List.range A) ++
        ring P (fun k => if k < P - A then A + k else 0) 0 (P - A)).Perm (List.range P)
      rw [ring_init 0 (P - A) 0 (by omega) (by omega)]
      have e1 : List.map (fun i => if i < A then i else 0) (List.range A) = List.range A := by
        conv => rhs; rw [← List.map_id (List.range A)]
        apply List.map_congr_left; intro k hk; simp [List.mem_range.1 hk]
      rw [e1, Nat.add_zero, ← List.range_add, Nat.add_sub_cancel' hAP]
  refine ⟨?_, ?_, ?_, ?_, ?_⟩
  · have hs := rinv_sanity hA pre
    have : init P A = { init P A with ok := true } := by
      show (⟨_, _, _, _, _, _, _, _, _⟩ : Regs) = ⟨_, _, _, _, _, _, _, _, _⟩
      congr 1
    rw [this]; exact pre
  · intro d hd; simp only [List.mem_replicate] at hd; cases hd.2
  · rw [hns]; exact List.nodup_nil
  · intro t ht; rw [hns] at ht; cases ht
  · intro a ha
    show (if a < A then a else 0) = a
    rw [if_pos ha]

theorem sinv_reach (hA : 0 < A) (hAP : A ≤ P) {s : Sys} (h : Reach P A N s) : SInv P A N s := by
  induction h with
  | init w => exact sinv_init hA hAP w
  | step i _ v ih => exact sinv_step hA ih v

end Verif.Proofs.Ren

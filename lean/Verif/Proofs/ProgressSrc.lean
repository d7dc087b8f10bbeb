import Verif.Proofs.Waker
/-
Which register an instruction waiting for dispatch reads: that of the youngest older instruction in flight that writes it, and
otherwise the committed one.
-/
namespace Verif.ProgressProofs
open Verif.Spine Verif.SpineProofs
open Verif.Decode (DecInst MicroOp Iq decompose decodeEntry)
open Verif.BranchWindow (Flight)
open Verif.RobQueue (insts sig)
open Verif.DispatchGroup (waiting fired)
open Verif.RenWindow (Entry lastWriter mapAfter entries)
open Verif.Props (C106_ordered C106_conserved)

variable {n : Nat}

/-! ### Registers read -/

/-- The decoder's source registers. -/
def Low (d : DecInst) : Prop := d.src1Areg < 32 ∧ d.src2Areg < 32

theorem low_finish (d : DecInst) : (Decode.decodeFinish d).src1Areg = d.src1Areg ∧ (Decode.decodeFinish d).src2Areg = d.src2Areg := by
  unfold Decode.decodeFinish
  simp only
  repeat' split
  all_goals exact ⟨rfl, rfl⟩

theorem low_system (w : BitVec 32) (d : DecInst) (h : Low d) : Low (Decode.decodeSystem w d) := by
  unfold Decode.decodeSystem
  simp only
  repeat' split
  all_goals exact h

theorem low_decode (w : BitVec 32) (pf : Bool) : Low (decodeEntry w pf) := by
  cases pf with
  | true => simp [decodeEntry, Low]
  | false =>
    have h : decodeEntry w false = Decode.decodeFinish (Decode.decodeOpcode w (Decode.decodeFields w)) := rfl
    obtain ⟨h1, h2⟩ := low_finish (Decode.decodeOpcode w (Decode.decodeFields w))
    have h0 : Low (Decode.decodeFields w) := ⟨(w.extractLsb' 15 5).isLt, (w.extractLsb' 20 5).isLt⟩
    rw [h, Low, h1, h2]
    unfold Decode.decodeOpcode
    repeat' split
    all_goals first
      | exact h0
      | exact ⟨show 0 < 32 by omega, h0.2⟩
      | exact low_system _ _ h0

/-! ### Lists -/

theorem lw_append (l r : List Entry) (a : Nat) : lastWriter (l ++ r) a = (lastWriter r a).or (lastWriter l a) := by
  unfold lastWriter
  rw [List.reverse_append, List.find?_append]
  cases (List.find? _ r.reverse) <;> rfl

theorem lw_mem {l : List Entry} {a p : Nat} (h : lastWriter l a = some p) : ∃ e ∈ l, e.destEn = true ∧ e.areg = a ∧ e.preg = p := by
  unfold lastWriter at h
  obtain ⟨e, he, rfl⟩ := Option.map_eq_some_iff.1 h
  have := List.find?_some he
  simp only [Bool.and_eq_true, beq_iff_eq] at this
  exact ⟨e, List.mem_reverse.1 (List.mem_of_find?_eq_some he), this.1, this.2, rfl⟩

theorem getD_or {α : Type} (x y : Option α) (z : α) : (x.or y).getD z = x.getD (y.getD z) := by cases x <;> rfl

theorem lw_commit {l : List Entry} {m : List Entry} (h : l.map (fun e => (e.destEn, e.areg, e.preg)) =
    m.map (fun e => (e.destEn, e.areg, e.preg))) (a : Nat) : lastWriter l a = lastWriter m a := by
  have key : ∀ l : List Entry, lastWriter l a =
      ((l.map (fun e => (e.destEn, e.areg, e.preg))).reverse.find? (fun e => e.1 && e.2.1 == a)).map (fun e => e.2.2) := by
    intro l
    rw [← List.map_reverse, List.find?_map, Option.map_map]; rfl
  rw [key, key, h]

theorem filter_split {l r : List Nat} {a : Nat} (h : (l ++ a :: r).Pairwise (· < ·)) : (l ++ a :: r).filter (fun x => decide (x < a)) = l := by
  rw [List.pairwise_append, List.pairwise_cons] at h
  rw [List.filter_append, List.filter_eq_self.2 (fun x hx => by simpa using h.2.2 x hx a List.mem_cons_self),
    List.filter_eq_nil_iff.2, List.append_nil]
  intro x hx
  rcases List.mem_cons.1 hx with rfl | hx
  · simp
  · have := h.2.1.1 x hx
    simp; omega

/-- Where an instruction handed over stands in its group. -/
theorem taken_split : ∀ {slots : List Ren.Slot} {lat : List (Option (DInst n))} {x : DInst n × Ren.Slot},
    slots.map Ren.Slot.inst = lat.map (Option.map toInst) → Core.Prefix slots → x ∈ taken slots lat →
    ∃ pre post lp lq, slots = pre ++ x.2 :: post ∧ lat = lp ++ some x.1 :: lq ∧ x.2.inst = some (toInst x.1) ∧ x.2.valid = true ∧
      entries pre = (taken pre lp).map entOf ∧ lp.filterMap id = (taken pre lp).map Prod.fst ∧ ∀ y ∈ taken pre lp, y ∈ taken slots lat
  | [], _, _, _, _, h => by simp [taken] at h
  | _ :: _, [], _, _, _, h => by simp [taken] at h
  | sl :: r, d :: ds, x, h1, h2, h => by
    simp only [List.map_cons, List.cons.injEq] at h1
    obtain ⟨p1, p2, p3⟩ := h2
    rw [taken] at h
    rcases List.mem_append.1 h with h | h
    · cases d with
      | none => simp at h
      | some d =>
        simp only [Option.bind_some] at h
        split at h
        · rename_i hv
          simp only [Option.toList_some, List.mem_singleton] at h
          subst h
          exact ⟨[], r, [], ds, rfl, rfl, h1.1, hv, rfl, rfl, fun y hy => (by cases hy)⟩
        · simp at h
    · obtain ⟨pre, post, lp, lq, e1, e2, e3, e4, e5, e6, e7⟩ := taken_split h1.2 p3 h
      have hx : x.2 ∈ r := by rw [e1]; simp
      refine ⟨sl :: pre, post, d :: lp, lq, by rw [e1]; rfl, by rw [e2]; rfl, e3, e4, ?_, ?_, ?_⟩
      · rw [taken, List.map_append, ← e5]
        cases d with
        | none =>
          have hi : sl.inst = none := h1.1
          show (sl :: pre).filterMap RenWindow.toEntry = _
          rw [List.filterMap_cons_none (by simp [RenWindow.toEntry, hi])]; rfl
        | some d =>
          have hi : sl.inst = some (toInst d) := h1.1
          have hv : sl.valid = true := by
            cases hv : sl.valid with
            | true => rfl
            | false => rw [p1 (by rw [hi]; rfl) hv x.2 hx] at e4; cases e4
          show (sl :: pre).filterMap RenWindow.toEntry = _
          rw [List.filterMap_cons_some (b := entOf (d, sl)) (by simp [RenWindow.toEntry, hi, hv, entOf, toInst])]
          simp [hv]; rfl
      · rw [taken, List.map_append, ← e6]
        cases d with
        | none => rfl
        | some d =>
          have hi : sl.inst = some (toInst d) := h1.1
          have hv : sl.valid = true := by
            cases hv : sl.valid with
            | true => rfl
            | false => rw [p1 (by rw [hi]; rfl) hv x.2 hx] at e4; cases e4
          simp [hv]
      · intro y hy
        rw [taken] at hy ⊢
        rcases List.mem_append.1 hy with hy | hy
        · exact List.mem_append_left _ hy
        · exact List.mem_append_right _ (e7 y hy)

/-! ### The stages -/

section
variable {k : Spine.Cfg} {s : St n} {c : Spine.Cyc n}
variable {bw : BranchWindow.Sys n} {rw : RenWindow.Sys} {Z : List (Flight n × Sig)} {g : Nat → BitVec 3}

/-- What is older than `w` and in flight. -/
def older (k : Spine.Cfg) (s : St n) (w : Nat) : List Nat := (inflight k s).filter (fun j => decide (j < w))

/-- The register that holds `a` after the instructions `l` in flight. -/
def view (s : St n) (l : List Nat) (a : Nat) : Nat := (lastWriter (l.map s.info) a).getD (s.regs.arch a)

/-- What the retired instructions do to the committed map. -/
theorem arch_step (hk : Good k) (hl : Link k s bw rw Z g) (hv : Spine.Valid k s c) {a : Nat} (ha : a < k.A) :
    (Spine.step k s c).regs.arch a = if (retired s c).any Rob.isExc || interrupt s c then s.regs.arch a
      else view s ((retired s c).map (·.id)) a := by
  obtain ⟨Z', hl'⟩ := link_step hk hl hv
  have hA : 0 < k.A := by have := hk.regs; omega
  have h0 := (Proofs.Ren.sinv_reach hA hk.pregs hl.rr).hist a ha
  have h1 := (Proofs.Ren.sinv_reach hA hk.pregs hl'.rr).hist a ha
  rw [hl'.regs] at h1
  rw [hl.regs] at h0
  rw [h1]
  show mapAfter (rw.hist ++ if (retired s c).any Rob.isExc || interrupt s c then [] else rw.win.take (retired s c).length) a = _
  split
  · rw [List.append_nil, h0]
  · rw [← Proofs.Ren.mapAfter_append _ _ _ _ h0, Proofs.Ren.applyAll_eq]
    unfold view
    congr 1
    apply lw_commit
    have hc := congrArg (List.map fun e : Ren.Commit => (e.destEn, e.areg, e.preg)) (commits_eq hk hl c)
    rw [List.map_map, List.map_map] at hc
    rw [List.map_map, List.map_map]
    exact hc

/-- In an ordinary cycle: what is older than an instruction that has not been dispatched. -/
theorem older_step (hk : Good k) (hr : Spine.Reach k s) (hv : Spine.Valid k s c) (hf : flush s c = false)
    (hm : s.idu.latch.mispred = false) {w : Nat} (hw : w ∈ disIds s ++ latIds s) :
    older k s w = (retired s c).map (·.id) ++ older k (Spine.step k s c) w := by
  obtain ⟨bw, rw, Z, g, hl⟩ := link_reach hk hr
  have hc := C106_conserved hk hr hv hf hm
  have hlt : w < s.next := (C106_ordered hk hr).2 w (by unfold inflight; rw [List.append_assoc]; exact List.mem_append_right _ hw)
  obtain ⟨_, _, rest, _, hins, _⟩ := hl.split hk c
  have hret : ∀ r ∈ (retired s c).map (·.id), r < w := by
    intro r hr'
    refine SchedProofs.rob_lt_dis hk hr ?_ hw
    unfold robIds; rw [hins, List.map_append]; exact List.mem_append_left _ hr'
  have hacc : (accepted k s c).filter (fun j => decide (j < w)) = [] := by
    rw [List.filter_eq_nil_iff]
    intro x hx
    unfold accepted at hx
    obtain ⟨i, _, e⟩ := List.mem_range'.1 hx
    simp; omega
  have hc := congrArg (List.filter (fun j => decide (j < w))) hc
  rw [List.filter_append, List.filter_append, List.filter_eq_self.2 (fun x hx => by simpa using hret x hx),
    hacc, List.append_nil] at hc
  exact hc.symm

theorem view_step (hk : Good k) (hr : Spine.Reach k s) (hv : Spine.Valid k s c) (hf : flush s c = false)
    (hm : s.idu.latch.mispred = false) {w : Nat} (hw : w ∈ disIds s ++ latIds s) {a : Nat} (ha : a < k.A) :
    view (Spine.step k s c) (older k (Spine.step k s c) w) a =
      (lastWriter ((older k s w).map (Spine.step k s c).info) a).getD (s.regs.arch a) := by
  obtain ⟨bw, rw, Z, g, hl⟩ := link_reach hk hr
  have he : ((retired s c).any Rob.isExc || interrupt s c) = false := by
    cases h : ((retired s c).any Rob.isExc || interrupt s c) with
    | false => rfl
    | true =>
      rw [Bool.or_eq_true] at h
      rw [(exc_facts hk hl c).2 h] at hf; cases hf
  have hsame : ((retired s c).map (·.id)).map (Spine.step k s c).info = ((retired s c).map (·.id)).map s.info := by
    refine List.map_congr_left fun x hx => WakerProofs.info_rob hk hr hl ?_
    obtain ⟨_, _, rest, _, hins, _⟩ := hl.split hk c
    unfold robIds; rw [hins, List.map_append]; exact List.mem_append_left _ hx
  rw [older_step hk hr hv hf hm hw, List.map_append, lw_append, getD_or, hsame]
  unfold view
  rw [arch_step hk hl hv ha, he, if_neg (by simp)]; rfl

/-- Where an instruction waiting comes from. -/
theorem wait_comes (hl : Link k s bw rw Z g) (hf : flush s c = false) (hm : s.idu.latch.mispred = false)
    {u : Dispatch.Inst n} (hu : u ∈ waiting (Spine.step k s c).dis) :
    (∃ v ∈ waiting s.dis, u = Dispatch.scrub (disIn k s c) v) ∨
    ∃ x ∈ taken (renSlots k s) s.lat, (disOut k s c).ready = true ∧ u = Dispatch.scrub (disIn k s c) (disOf x) := by
  obtain ⟨h1, h2⟩ := hl.slots
  obtain ⟨_, _, e3, _⟩ := group_facts _ _ h1 h2
  have hwait := Proofs.Dispatch.step_waiting k.dis (Proofs.Dispatch.wf_reach hl.dr) (disIn k s c) hf hm
  change (fired (disOut k s c)).map (·.inst) ++ waiting (Spine.step k s c).dis =
    (waiting s.dis).map _ ++ (DispatchGroup.received (disOut k s c) (disIn k s c)).map _ at hwait
  have hu := List.mem_append_right ((fired (disOut k s c)).map (·.inst)) hu
  rw [hwait] at hu
  rcases List.mem_append.1 hu with hu | hu
  · obtain ⟨v, hv, rfl⟩ := List.mem_map.1 hu
    exact .inl ⟨v, hv, rfl⟩
  · obtain ⟨v, hv, rfl⟩ := List.mem_map.1 hu
    have hv : v ∈ (if (disOut k s c).ready then (renOut (renSlots k s) s.lat).filterMap id else []) := hv
    split at hv
    · rename_i hR
      rw [e3] at hv
      obtain ⟨x, hx, rfl⟩ := List.mem_map.1 hv
      exact .inr ⟨x, hx, hR, rfl⟩
    · cases hv

/-- The registers an instruction waiting for dispatch reads. -/
def Src (k : Spine.Cfg) (s : St n) (u : Dispatch.Inst n) : Prop :=
  u.src1Preg = view s (older k s u.ftq) u.dec.src1Areg ∧ u.src2Preg = view s (older k s u.ftq) u.dec.src2Areg

theorem src_step (hk : Good k) (hr : Spine.Reach k s) (hv : Spine.Valid k s c) (hS : ∀ u ∈ waiting s.dis, Src k s u) :
    ∀ u ∈ waiting (Spine.step k s c).dis, Src k (Spine.step k s c) u := by
  intro u hu
  obtain ⟨bw, rw, Z, g, hl⟩ := link_reach hk hr
  have hA : 0 < k.A := by have := hk.regs; omega
  cases hf : flush s c with
  | true => rw [(emptied (k := k) (.inl hf)).1] at hu; cases hu
  | false =>
  cases hm : s.idu.latch.mispred with
  | true => rw [(emptied (k := k) (c := c) (.inr hm)).1] at hu; cases hu
  | false =>
  have hd := SchedProofs.decd_reach Low low_decode hk hr
  have hreg := hk.regs
  rcases wait_comes hl hf hm hu with ⟨v, hvm, rfl⟩ | ⟨x, hx, hR, rfl⟩
  · have hw : v.ftq ∈ disIds s ++ latIds s := List.mem_append_left _ (List.mem_map_of_mem hvm)
    obtain ⟨l1, l2⟩ := hd.dis v hvm
    have hsame : (older k s v.ftq).map (Spine.step k s c).info = (older k s v.ftq).map s.info := by
      refine List.map_congr_left fun j hj => info_old hl fun d hdm he => ?_
      have hj := (List.mem_filter.1 hj).2
      have ho := (C106_ordered hk hr).1
      unfold inflight at ho
      rw [List.pairwise_append] at ho
      have := ho.2.2 v.ftq (List.mem_append_right _ (List.mem_map_of_mem hvm)) d.uid (List.mem_map_of_mem (f := fun d : DInst n => d.uid) hdm)
      simp at hj
      omega
    obtain ⟨s1, s2⟩ := hS v hvm
    constructor
    · show v.src1Preg = view _ (older k _ v.ftq) v.dec.src1Areg
      rw [view_step hk hr hv hf hm hw (by omega), hsame]; exact s1
    · show v.src2Preg = view _ (older k _ v.ftq) v.dec.src2Areg
      rw [view_step hk hr hv hf hm hw (by omega), hsame]; exact s2
  · obtain ⟨h1, h2⟩ := hl.slots
    obtain ⟨pre, post, lp, lq, e1, e2, e3, e4, e5, e6, e7⟩ := taken_split h1 h2 hx
    have hlat : latIds s = (lp.filterMap id).map (·.uid) ++ x.1.uid :: (lq.filterMap id).map (·.uid) := by
      unfold latIds; rw [e2]; simp
    have hw : x.1.uid ∈ latIds s := by rw [hlat]; exact List.mem_append_right _ List.mem_cons_self
    have hw' : x.1.uid ∈ disIds s ++ latIds s := List.mem_append_right _ hw
    obtain ⟨l1, l2⟩ := hd.lat x.1 (by rw [e2]; simp)
    have hold : older k s x.1.uid = robIds k s ++ disIds s ++ (taken pre lp).map (·.1.uid) := by
      have ho := (C106_ordered hk hr).1
      unfold older
      have hi : inflight k s = (robIds k s ++ disIds s ++ (taken pre lp).map (·.1.uid)) ++ x.1.uid :: (lq.filterMap id).map (·.uid) := by
        unfold inflight
        rw [hlat, e6, List.map_map]
        simp [Function.comp_def]
      rw [hi] at ho ⊢
      exact filter_split ho
    have hnew : ((taken pre lp).map (·.1.uid)).map (Spine.step k s c).info = entries pre := by
      rw [e5, List.map_map]
      exact List.map_congr_left fun y hy => info_new hl hR (e7 y hy)
    have hkeep : (robIds k s ++ disIds s).map (Spine.step k s c).info = renamed k s := by
      refine List.map_congr_left fun j hj => info_old hl fun d hdm he => ?_
      have ho := (C106_ordered hk hr).1
      unfold inflight at ho
      rw [List.pairwise_append] at ho
      have := ho.2.2 j hj d.uid (List.mem_map_of_mem (f := fun d : DInst n => d.uid) hdm)
      omega
    have hsl : Ren.renameGroup k.P rw.regs rw.insts = pre ++ x.2 :: post := by rw [hl.regs, hl.latch]; exact e1
    obtain ⟨c1, c2, _⟩ := Props.C13_dataflow hA hk.pregs hl.rr hsl e3 e4
    have key : ∀ a, a < k.A → mapAfter (rw.hist ++ rw.win ++ entries pre) a =
        view (Spine.step k s c) (older k (Spine.step k s c) x.1.uid) a := by
      intro a ha
      have h0 := (Proofs.Ren.sinv_reach hA hk.pregs hl.rr).hist a ha
      rw [view_step hk hr hv hf hm hw' ha, hold, List.map_append, hnew, hkeep, lw_append, ← (Props.renamed_eq hl).2 a, ← lw_append,
        List.append_assoc, ← Proofs.Ren.mapAfter_append _ _ _ _ h0, Proofs.Ren.applyAll_eq, hl.regs]
    exact ⟨(c1 (by show x.1.dec.src1Areg < _; omega)).trans (key _ (by show x.1.dec.src1Areg < _; omega)),
      (c2 (by show x.1.dec.src2Areg < _; omega)).trans (key _ (by show x.1.dec.src2Areg < _; omega))⟩

end

end Verif.ProgressProofs

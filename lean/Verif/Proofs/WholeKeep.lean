import Verif.Proofs.WholeValid
/-
The payload invariant is kept by every cycle.
-/
namespace Verif.WholeProofs
open Verif.Spine Verif.Whole Verif.SpineProofs
open Verif.Core (W Sem Isa Item Fetched Task)
open Verif.BranchWindow (Flight)
open Verif.RenWindow (Entry toEntry entries)
open Verif.RobQueue (insts sig)
open Verif.DispatchGroup (waiting)
open Verif.Props (rob_ids C106_ordered C106_squash)

variable {n : Nat} {M : Type} {prog : W → Sem M}
variable {k : Cfg} {s : State n M} {c : Input n M}
variable {bw : BranchWindow.Sys n} {rw : RenWindow.Sys} {Z : List (Flight n × Sig)} {g : Nat → BitVec 3}

/-- The oldest mispredicted operation is chosen. -/
theorem arb_min (rank : Exu.Op n → Nat) {w : Exu.Op n} : ∀ (l : List (Exu.Op n)) (a : Exu.Arb n),
    (∀ x y, (x ∈ l ∧ x.mispred = true ∨ a.worst = some x) → (y ∈ l ∧ y.mispred = true ∨ a.worst = some y) →
      (Exu.cmpAge x y = true ↔ rank y < rank x)) →
    (l.foldl Exu.arbStep a).worst = some w →
    (∀ o ∈ l, o.mispred = true → rank w ≤ rank o) ∧ (∀ o, a.worst = some o → rank w ≤ rank o)
  | [], a, _, h => by
    refine ⟨fun o ho => (by cases ho), fun o ho => ?_⟩
    have h : a.worst = some w := h
    rw [h] at ho; cases ho; exact Nat.le_refl _
  | u :: l, a, hr, h => by
    rw [List.foldl_cons] at h
    have hsub : ∀ x, (x ∈ l ∧ x.mispred = true ∨ (Exu.arbStep a u).worst = some x) →
        (x ∈ u :: l ∧ x.mispred = true ∨ a.worst = some x) := by
      intro x hx
      rcases hx with ⟨h1, h2⟩ | hx
      · exact .inl ⟨List.mem_cons_of_mem _ h1, h2⟩
      · unfold Exu.arbStep at hx
        simp only at hx
        split at hx
        · rename_i hm
          split at hx
          · cases hx; exact .inl ⟨List.mem_cons_self, hm⟩
          · rename_i y hy
            split at hx
            · cases hx; exact .inl ⟨List.mem_cons_self, hm⟩
            · cases hx; exact .inr hy
        · exact .inr hx
    obtain ⟨h1, h2⟩ := arb_min rank l (Exu.arbStep a u) (fun x y hx hy => hr x y (hsub x hx) (hsub y hy)) h
    have hold : ∀ o, a.worst = some o → rank w ≤ rank o := by
      intro o ho
      by_cases hm : u.mispred = true
      · by_cases hc : Exu.cmpAge o u = true
        · have : (Exu.arbStep a u).worst = some u := by simp [Exu.arbStep, hm, ho, hc]
          have h3 := h2 u this
          have := (hr o u (.inr ho) (.inl ⟨List.mem_cons_self, hm⟩)).1 hc
          omega
        · exact h2 o (by simp [Exu.arbStep, hm, ho, hc])
      · exact h2 o (by simp [Exu.arbStep, hm, ho])
    refine ⟨?_, hold⟩
    intro o ho hm
    rcases List.mem_cons.1 ho with e | e
    · subst e
      cases hw : a.worst with
      | none => exact h2 o (by simp [Exu.arbStep, hm, hw])
      | some x =>
        by_cases hc : Exu.cmpAge x o = true
        · exact h2 o (by simp [Exu.arbStep, hm, hw, hc])
        · have h3 := hold x hw
          have : ¬ rank o < rank x := fun hlt => hc ((hr x o (.inr hw) (.inl ⟨List.mem_cons_self, hm⟩)).2 hlt)
          omega
    · exact h1 o e hm

theorem arb_some {l : List (Exu.Op n)} {o : Exu.Op n} (ho : o ∈ l) (hm : o.mispred = true) :
    (l.foldl Exu.arbStep ⟨0#n, none⟩).worst.isSome = true := by
  have key : ∀ (l : List (Exu.Op n)) (a : Exu.Arb n), a.worst.isSome = true ∨ (∃ o ∈ l, o.mispred = true) →
      (l.foldl Exu.arbStep a).worst.isSome = true := by
    intro l
    induction l with
    | nil => intro a h; rcases h with h | ⟨o, ho, _⟩; exact h; cases ho
    | cons u l ih =>
      intro a h
      rw [List.foldl_cons]
      apply ih
      by_cases hu : u.mispred = true
      · left
        simp only [Exu.arbStep, hu, if_true]
        split
        · rfl
        · split <;> rfl
      · rcases h with h | ⟨o, ho, hm⟩
        · left; simp only [Exu.arbStep, hu]; exact h
        · rcases List.mem_cons.1 ho with e | e
          · subst e; exact absurd hm hu
          · exact .inr ⟨o, e, hm⟩
  exact key l _ (.inr ⟨o, ho, hm⟩)

/-- Where the contents of the reorder buffer come from. -/
theorem rob_from (hk : Good k) (hl : Link k s.sp bw rw Z g) {v : Rob.Uop} (hv : v ∈ insts k.L (Spine.step k s.sp c.hw).rob) :
    flush s.sp c.hw = false ∧ ((∃ u ∈ live k s.sp, u ∈ insts k.L s.sp.rob ∧ sig v = sig u) ∨
      s.sp.idu.latch.mispred = false ∧ ∃ a ∈ DispatchGroup.fired (disOut k s.sp c.hw), sig v = sig (toUop a)) := by
  obtain ⟨_, _, rest, _, hins, _, _, _, hs⟩ := hl.split hk c.hw
  have hm := List.mem_map_of_mem (f := sig) hv
  rw [hs] at hm
  cases hf : flush s.sp c.hw with
  | true => rw [hf, if_pos rfl] at hm; cases hm
  | false =>
    refine ⟨rfl, ?_⟩
    rw [hf, if_neg (by simp)] at hm
    cases hmi : s.sp.idu.latch.mispred with
    | true =>
      rw [hmi, if_pos rfl] at hm
      obtain ⟨u, hu, he⟩ := List.mem_map.1 hm
      refine .inl ⟨u, ?_, ?_, he.symm⟩
      · unfold live; rw [if_pos hmi]; exact hu
      · rw [← Proofs.Rob.upTo_prefix s.sp.redirect (insts k.L s.sp.rob)]; exact List.mem_append_left _ hu
    | false =>
      rw [hmi, if_neg (by simp)] at hm
      rcases List.mem_append.1 hm with hm | hm
      · obtain ⟨u, hu, he⟩ := List.mem_map.1 hm
        have hmem : u ∈ insts k.L s.sp.rob := by rw [hins]; exact List.mem_append_right _ hu
        refine .inl ⟨u, ?_, hmem, he.symm⟩
        unfold live; rw [hmi]; exact hmem
      · obtain ⟨a, ha, he⟩ := List.mem_map.1 hm
        exact .inr ⟨rfl, a, ha, he.symm⟩

/-- Where the instructions waiting for dispatch, and those dispatched, come from. -/
theorem dis_from (hl : Link k s.sp bw rw Z g) (hf : flush s.sp c.hw = false) (hm : s.sp.idu.latch.mispred = false)
    {u : Dispatch.Inst n} (hu : u ∈ (DispatchGroup.fired (disOut k s.sp c.hw)).map (·.inst) ++ waiting (Spine.step k s.sp c.hw).dis) :
    (∃ v ∈ waiting s.sp.dis, u.ftq = v.ftq ∧ u.dec = v.dec) ∨
    ∃ x ∈ taken (renSlots k s.sp) s.sp.lat, (disOut k s.sp c.hw).ready = true ∧ u.ftq = x.1.uid ∧ u.dec = x.1.dec := by
  obtain ⟨h1, h2⟩ := hl.slots
  obtain ⟨_, _, e3, _⟩ := group_facts _ _ h1 h2
  have hwait := Proofs.Dispatch.step_waiting k.dis (Proofs.Dispatch.wf_reach hl.dr) (disIn k s.sp c.hw) hf hm
  change (DispatchGroup.fired (disOut k s.sp c.hw)).map (·.inst) ++ waiting (Spine.step k s.sp c.hw).dis =
    (waiting s.sp.dis).map _ ++ (DispatchGroup.received (disOut k s.sp c.hw) (disIn k s.sp c.hw)).map _ at hwait
  rw [hwait] at hu
  rcases List.mem_append.1 hu with hu | hu
  · obtain ⟨v, hv, rfl⟩ := List.mem_map.1 hu
    exact .inl ⟨v, hv, rfl, rfl⟩
  · obtain ⟨v, hv, rfl⟩ := List.mem_map.1 hu
    have hv : v ∈ (if (disOut k s.sp c.hw).ready then (renOut (renSlots k s.sp) s.sp.lat).filterMap id else []) := hv
    split at hv
    · rename_i hR
      rw [e3] at hv
      obtain ⟨x, hx, rfl⟩ := List.mem_map.1 hv
      exact .inr ⟨x, hx, hR, rfl, rfl⟩
    · cases hv

theorem pc_old {u : Nat} (hlt : u < s.sp.next) : ((cycle prog k s c).pay u).1 = (s.pay u).1 := by
  show (if culprit k s = some u then _ else pay1 k s c u : W × W).1 = _
  split
  · rfl
  · unfold pay1; rw [if_pos hlt]

theorem info_ids (hk : Good k) (hi : Inv prog k s) (hl : Link k s.sp bw rw Z g) {u : Nat} (hu : u ∈ ids k s) :
    (Spine.step k s.sp c.hw).info u = s.sp.info u := by
  refine info_old hl fun d hd he => ?_
  obtain ⟨o, ho, he'⟩ := List.mem_filterMap.1 hd
  rw [show o = some d from he'] at ho
  have := ids_lat hk hi.reach hu ho
  omega

/-- The completion mask of an instruction that stays: reported before, or now. -/
theorem bit_from (hk : Good k) {Z'} (hl : Link k s.sp bw rw Z g)
    (hl' : Link k (Spine.step k s.sp c.hw) (BranchWindow.stepSys k.maxBr bw (iB k s.sp c.hw))
      (RenWindow.stepSys k.P k.A n rw (iR k s.sp c.hw)) Z' (RobQueue.report g (robIn k s.sp c.hw)))
    {v : Rob.Uop} (hv : v ∈ insts k.L (Spine.step k s.sp c.hw).rob) (hb : v.cplt.getLsbD 1 = true) :
    flush s.sp c.hw = false ∧ ∃ u ∈ live k s.sp, u ∈ insts k.L s.sp.rob ∧ sig v = sig u ∧
      (u.cplt.getLsbD 1 = true ∨ ∃ w ∈ c.hw.wbs ++ c.hw.res.map brWb, w.robIdx = u.robIdx ∧ w.bit.getLsbD 1 = true) := by
  obtain ⟨W, hW⟩ := Proofs.Rob.rinv_reach hk.lines hl.qr
  obtain ⟨W', hW'⟩ := Proofs.Rob.rinv_reach hk.lines hl'.qr
  have hc := done_mem hW' hl'.done hv
  obtain ⟨hf, hfrom⟩ := rob_from hk hl hv
  refine ⟨hf, ?_⟩
  unfold RobQueue.report at hc
  split at hc
  · rw [hc] at hb; simp at hb
  · rename_i hnd
    rcases hfrom with ⟨u, hu, hum, hs⟩ | ⟨_, a, ha, hs⟩
    · refine ⟨u, hu, hum, hs, ?_⟩
      have hix : v.robIdx = u.robIdx := congrArg (fun x : Sig => x.2.1) hs
      rw [hc, hix, ← done_mem hW hl.done hum] at hb
      exact (fold_bit _ _ _).1 hb
    · exfalso
      apply hnd
      refine ⟨toUop a, ?_, (congrArg (fun x : Sig => x.2.1) hs).symm⟩
      show toUop a ∈ (fireRow (disOut k s.sp c.hw)).filterMap id
      rw [row_fired]; exact List.mem_map_of_mem ha

theorem uop_of (hl : Link k s.sp bw rw Z g) {z} (hz : z ∈ Z) : ∃ v ∈ insts k.L s.sp.rob, sig v = z.2 :=
  List.mem_map.1 (show z.2 ∈ (insts k.L s.sp.rob).map sig by rw [hl.sigs]; exact List.mem_map_of_mem hz)

/-- The latched misprediction belongs to a branch that has been reported. -/
theorem mis_next (hk : Good k) {Z'} (hl' : Link k (Spine.step k s.sp c.hw) (BranchWindow.stepSys k.maxBr bw (iB k s.sp c.hw))
      (RenWindow.stepSys k.P k.A n rw (iR k s.sp c.hw)) Z' (RobQueue.report g (robIn k s.sp c.hw)))
    (hm : (Spine.step k s.sp c.hw).idu.latch.mispred = true) :
    (∃ b ∈ insts k.L (Spine.step k s.sp c.hw).rob, b.robIdx = (Spine.step k s.sp c.hw).redirect) ∧
    ∀ b ∈ insts k.L (Spine.step k s.sp c.hw).rob, b.robIdx = (Spine.step k s.sp c.hw).redirect →
      b.cplt.getLsbD 1 = true ∧ ((Spine.step k s.sp c.hw).info b.id).tag.isSome = true := by
  obtain ⟨W', hW'⟩ := Proofs.Rob.rinv_reach hk.lines hl'.qr
  obtain ⟨z, hz, hzt, hzr⟩ := hl'.mis hm
  obtain ⟨v, hv, hsv⟩ := List.mem_map.1 (show z.2 ∈ (insts k.L (Spine.step k s.sp c.hw).rob).map sig by
    rw [hl'.sigs]; exact List.mem_map_of_mem hz)
  have hvr : v.robIdx = (Spine.step k s.sp c.hw).redirect := by rw [← hzr, ← hsv]; rfl
  have hvi : z.2.1 = v.id := by rw [← hsv]; rfl
  refine ⟨⟨v, hv, hvr⟩, ?_⟩
  intro b hb hbr
  have : b = v := pair_inj (rob_inj hW') hb hv (hbr.trans hvr.symm)
  subst this
  obtain ⟨hp, hn⟩ := hl'.core.tag_pos (hl'.memZ hz) hzt
  -- the broadcast clears the branch's tag
  have hlat : (Spine.step k s.sp c.hw).idu.latch = if flush s.sp c.hw then Idu.Latch.none n else exu2id c.hw := by
    show (Idu.combFire s.sp.idu k.maxBr (decSlots k s.sp c.hw) (renReady k s.sp c.hw) (flush s.sp c.hw) (exu2id c.hw)).latch = _
    unfold Idu.combFire
    cases flush s.sp c.hw
    · cases s.sp.idu.latch.mispred <;> rfl
    · rfl
  have hclr : (Spine.step k s.sp c.hw).idu.latch.clear.getLsbD (Spine.step k s.sp c.hw).idu.latch.brId = true := by
    cases hf : flush s.sp c.hw with
    | true => rw [hlat, hf] at hm; cases hm
    | false =>
      rw [hlat, hf] at hm hn ⊢
      have hm : (arb c.hw).worst.isSome = true := hm
      obtain ⟨w, hw⟩ := Option.isSome_iff_exists.1 hm
      have hid : (exu2id c.hw).brId = w.brId := by unfold exu2id; rw [hw]; rfl
      rcases arb_worst c.hw.res _ hw with e | ⟨hmem, _⟩
      · cases e
      · exact (arb_clear c.hw.res _ hn).2 ⟨w, hmem, hid.symm⟩
  obtain ⟨y, hy, hyt, hyg⟩ := hl'.own _ hp hclr
  have hseq := hl'.core.uniq _ (hl'.memZ hy) _ (hl'.memZ hz) _ hyt hzt
  have hyz : y.2.1 = z.2.1 := by rw [← (hl'.j y hy).seq, ← (hl'.j z hz).seq, hseq]
  -- the same instruction
  obtain ⟨u, hu, hsu⟩ := List.mem_map.1 (show y.2 ∈ (insts k.L (Spine.step k s.sp c.hw).rob).map sig by
    rw [hl'.sigs]; exact List.mem_map_of_mem hy)
  have hzy : z = y := by
    have hs : (Z'.map (fun z => z.1.seq)).Pairwise (· < ·) := by
      have := hl'.core.sorted
      rw [hl'.win, List.append_assoc, List.pairwise_append] at this
      have := this.1
      rw [List.pairwise_map] at this
      rw [List.pairwise_map]; exact this
    rw [List.pairwise_map] at hs
    exact pair_inj (f := fun z : Flight n × Sig => z.1.seq) (hs.imp fun h => Nat.ne_of_lt h) hz hy hseq.symm
  subst hzy
  refine ⟨?_, ?_⟩
  · rw [done_mem hW' hl'.done hb]
    have : z.2.2.1 = b.robIdx := by rw [← hsv]; rfl
    rw [← this]; exact hyg
  · rw [← hvi]
    rcases (hl'.j z hz).tag with e | e
    · rw [e] at hzt; cases hzt
    · rw [← e, hzt]; rfl

/-- Of two branches in the reorder buffer the arbitration knows the older one. -/
theorem age_ids (hk : Good k) (hi : Inv prog k s) (hl : Link k s.sp bw rw Z g) {u v : Rob.Uop} (hu : u ∈ insts k.L s.sp.rob)
    (hv : v ∈ insts k.L s.sp.rob) : RobQueue.younger u v = true ↔ v.id < u.id := by
  obtain ⟨i, hi', rfl⟩ := List.mem_iff_getElem.1 hu
  obtain ⟨j, hj', rfl⟩ := List.mem_iff_getElem.1 hv
  rw [Props.C37_age hk.lines hl.qr (List.getElem?_eq_getElem hi') (List.getElem?_eq_getElem hj')]
  have hord := (C106_ordered hk hi.reach).1
  rw [inflight_eq, ids, List.append_assoc, List.pairwise_append] at hord
  have hord := hord.1
  unfold robIds at hord
  rw [List.pairwise_map] at hord
  have hp := List.pairwise_iff_getElem.1 hord
  constructor
  · intro h; exact hp j i hj' hi' h
  · intro h
    rcases Nat.lt_trichotomy i j with h1 | h1 | h1
    · have := hp i j hi' hj' h1; omega
    · subst h1; omega
    · exact h1

end Verif.WholeProofs

import Verif.Proofs.WholeLib
/-
One cycle of the composed stages is one cycle of `Core`.
-/
namespace Verif.WholeProofs
open Verif.Spine Verif.Whole Verif.SpineProofs
open Verif.Core (W Sem Isa Item Fetched Task)
open Verif.Decode (DecInst decodeEntry)
open Verif.BranchWindow (Flight)
open Verif.RenWindow (Entry toEntry entries)
open Verif.RobQueue (insts sig)
open Verif.DispatchGroup (waiting)
open Verif.Props (rob_ids C106_ordered C106_squash C106_conserved)

variable {n : Nat} {M : Type} {prog : W → Sem M}

section
variable {k : Cfg} {s : State n M} {c : Input n M}
variable {bw : BranchWindow.Sys n} {rw : RenWindow.Sys} {Z : List (Flight n × Sig)} {g : Nat → BitVec 3}

theorem ids_seq (hl : Link k s.sp bw rw Z g) : ids k s = Z.map (fun z => z.1.seq) ++ disIds s.sp := by
  unfold ids; rw [rob_ids hl]

theorem ids_length (hl : Link k s.sp bw rw Z g) : rw.win.length = (ids k s).length := by
  rw [ids_seq hl, hl.rwin]; simp [disIds]

theorem inflight_eq (k : Cfg) (s : State n M) : inflight k s.sp = ids k s ++ latIds s.sp := rfl

theorem ids_lt (hk : Good k) (hr : Spine.Reach k s.sp) {u : Nat} (hu : u ∈ ids k s) : u < s.sp.next :=
  (C106_ordered hk hr).2 u (by rw [inflight_eq]; exact List.mem_append_left _ hu)

theorem lat_lt (hk : Good k) (hr : Spine.Reach k s.sp) {d : DInst n} (hd : some d ∈ s.sp.lat) : d.uid < s.sp.next :=
  (C106_ordered hk hr).2 _ (by
    rw [inflight_eq]
    exact List.mem_append_right _ (List.mem_map_of_mem (List.mem_filterMap.2 ⟨_, hd, rfl⟩)))

theorem ids_lat (hk : Good k) (hr : Spine.Reach k s.sp) {u : Nat} (hu : u ∈ ids k s) {d : DInst n} (hd : some d ∈ s.sp.lat) :
    u < d.uid := by
  have := (C106_ordered hk hr).1
  rw [inflight_eq, List.pairwise_append] at this
  exact this.2.2 _ hu _ (List.mem_map_of_mem (List.mem_filterMap.2 ⟨_, hd, rfl⟩))

/-- The instructions retired are the oldest. -/
theorem retired_ids (hk : Good k) (hl : Link k s.sp bw rw Z g) (c : Input n M) :
    (Spine.retired s.sp c.hw).map (·.id) = (ids k s).take (Spine.retired s.sp c.hw).length := by
  obtain ⟨_, _, rest, _, hins, _⟩ := hl.split hk c.hw
  unfold ids robIds
  rw [hins, List.map_append, List.append_assoc, List.take_left' (by simp)]

/-- The branch whose misprediction is broadcast, in the windows. -/
theorem mis_split (hk : Good k) (hr : Spine.Reach k s.sp) (hl : Link k s.sp bw rw Z g) (hv : Spine.Valid k s.sp c.hw)
    (hm : s.sp.idu.latch.mispred = true) :
    ∃ X z Y, Z = X ++ z :: Y ∧ z.1.tag = some s.sp.idu.latch.brId ∧ (∀ x ∈ X, x.1.tag ≠ some s.sp.idu.latch.brId) ∧
      culprit k s = some z.1.seq ∧ ids k (cycle prog k s c) = X.map (fun z => z.1.seq) ++ [z.1.seq] := by
  obtain ⟨W, hW⟩ := Proofs.Rob.rinv_reach hk.lines hl.qr
  obtain ⟨z, hz, hzt, hzr⟩ := hl.mis hm
  obtain ⟨X, Y, hXY⟩ := List.append_of_mem hz
  obtain ⟨u, hu, hsu⟩ := List.mem_map.1 (show z.2 ∈ (insts k.L s.sp.rob).map sig by
    rw [hl.sigs]; exact List.mem_map_of_mem hz)
  have hid : z.1.seq = u.id := by rw [(hl.j z hz).seq, ← hsu]; rfl
  have hix : u.robIdx = s.sp.redirect := by rw [← hzr, ← hsu]; rfl
  have hsort := (C106_ordered hk hr).1
  have hinf : inflight k s.sp = X.map (fun z => z.1.seq) ++ z.1.seq :: (Y.map (fun z => z.1.seq) ++ disIds s.sp ++ latIds s.sp) := by
    rw [inflight_eq, ids_seq hl, hXY]; simp
  rw [hinf, List.pairwise_append, List.pairwise_cons] at hsort
  refine ⟨X, z, Y, hXY, hzt, ?_, ?_, ?_⟩
  · intro x hx ht
    have := hl.core.uniq _ (hl.memZ (show x ∈ Z by rw [hXY]; exact List.mem_append_left _ hx)) _ (hl.memZ hz) _ ht hzt
    have h2 := hsort.2.2 _ (List.mem_map_of_mem (f := fun z : Flight n × Sig => z.1.seq) hx) _ List.mem_cons_self
    omega
  · unfold culprit
    rw [if_pos hm]
    cases hf : (insts k.L s.sp.rob).find? (fun u => u.robIdx == s.sp.redirect) with
    | none =>
      have := List.find?_eq_none.1 hf u hu
      simp [hix] at this
    | some v =>
      have h1 := List.mem_of_find?_eq_some hf
      have h2 : v.robIdx = s.sp.redirect := by simpa using List.find?_some hf
      rw [pair_inj (rob_inj hW) h1 hu (h2.trans hix.symm), hid]; rfl
  · obtain ⟨b, hb, hbr, _, _, _, _, hi⟩ := C106_squash hk hr hv hm
    have hbu : b = u := pair_inj (rob_inj hW) hb hu (hbr.trans hix.symm)
    subst hbu
    obtain ⟨e1, e2, _⟩ := emptied (k := k) (c := c.hw) (s := s.sp) (.inr hm)
    have hids : ids k (cycle prog k s c) = inflight k (Spine.step k s.sp c.hw) := by
      have hlat : latIds (Spine.step k s.sp c.hw) = [] := by unfold latIds; rw [e2]; rfl
      show robIds k (Spine.step k s.sp c.hw) ++ disIds (Spine.step k s.sp c.hw) = _
      unfold inflight
      rw [hlat, List.append_nil]
    rw [hids, hi, hinf, List.filter_append, List.filter_cons]
    rw [if_pos (by simp [hid]), List.filter_eq_self.2, List.filter_eq_nil_iff.2]
    · intro a ha
      have := hsort.2.1.1 a ha
      simp; omega
    · intro a ha
      have := hsort.2.2 a ha _ List.mem_cons_self
      simp; omega

/-- The renamed instructions after an ordinary cycle. -/
theorem ids_run (hk : Good k) (hr : Spine.Reach k s.sp) (hl : Link k s.sp bw rw Z g) (hv : Spine.Valid k s.sp c.hw)
    (hf : flush s.sp c.hw = false) (hm : s.sp.idu.latch.mispred = false) :
    ids k (cycle prog k s c) = (ids k s).drop (Spine.retired s.sp c.hw).length ++
      ((if (disOut k s.sp c.hw).ready then taken (renSlots k s.sp) s.sp.lat else []).map (·.1.uid)) := by
  obtain ⟨Z', hl'⟩ := link_step hk hl hv
  have hlen := ids_length (s := cycle prog k s c) hl'
  obtain ⟨h1, h2⟩ := hl.slots
  obtain ⟨e1, _, _, _, e5, _⟩ := group_facts _ _ h1 h2
  have hmp : mispred s.sp = none := by simp [mispred, hm]
  have hwin : (RenWindow.stepSys k.P k.A n rw (iR k s.sp c.hw)).win = (rw.win.drop (Spine.retired s.sp c.hw).length ++
      (if (disOut k s.sp c.hw).ready then entries (Ren.renameGroup k.P rw.regs rw.insts) else [])).map
        (RenWindow.survive fun t => s.sp.idu.latch.clear.getLsbD t) := by
    show (if flush s.sp c.hw then [] else match mispred s.sp with | some t => _ | none => _) = _
    rw [hf, hmp]; rfl
  have hent : entries (Ren.renameGroup k.P rw.regs rw.insts) = (taken (renSlots k s.sp) s.sp.lat).map entOf := by
    rw [hl.regs, hl.latch]; exact e1
  have hret := retired_ids hk hl c
  have hle : (Spine.retired s.sp c.hw).length ≤ (ids k s).length := by
    have := congrArg List.length hret
    rw [List.length_map, List.length_take] at this; omega
  have hc := C106_conserved hk hr hv hf hm
  have hlat : latIds s.sp = (taken (renSlots k s.sp) s.sp.lat).map (·.1.uid) ++
      ((kept (renSlots k s.sp) s.sp.lat).filterMap id).map (·.uid) := by
    unfold latIds; rw [e5, List.map_append, List.map_map]; rfl
  rw [hret, show inflight k (Spine.step k s.sp c.hw) = ids k (cycle prog k s c) ++ latIds (Spine.step k s.sp c.hw) from rfl,
    inflight_eq] at hc
  have hc2 : ids k (cycle prog k s c) ++ latIds (Spine.step k s.sp c.hw) =
      (ids k s).drop (Spine.retired s.sp c.hw).length ++ (latIds s.sp ++ accepted k s.sp c.hw) := by
    refine (List.append_right_inj (s := (ids k s).take (Spine.retired s.sp c.hw).length)).1 ?_
    rw [hc, ← List.append_assoc ((ids k s).take _), List.take_append_drop, List.append_assoc]
  rw [hwin, hent, List.length_map, List.length_append, List.length_drop, ids_length hl] at hlen
  by_cases hR : (disOut k s.sp c.hw).ready = true
  · rw [if_pos hR] at hlen ⊢
    rw [hlat, List.append_assoc, ← List.append_assoc] at hc2
    refine (List.append_inj hc2 ?_).1
    rw [← hlen]; simp
  · rw [if_neg hR] at hlen ⊢
    refine (List.append_inj hc2 ?_).1.trans (by simp)
    rw [← hlen]; simp

theorem ids_flush (hk : Good k) (hr : Spine.Reach k s.sp) (hv : Spine.Valid k s.sp c.hw) (hf : flush s.sp c.hw = true) :
    ids k (cycle prog k s c) = [] := by
  have := Props.C106_flush hk hr hv hf
  rw [show inflight k (Spine.step k s.sp c.hw) = ids k (cycle prog k s c) ++ latIds (Spine.step k s.sp c.hw) from rfl] at this
  exact (List.append_eq_nil_iff.1 this).1

end
end Verif.WholeProofs

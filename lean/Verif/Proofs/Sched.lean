import Verif.Proofs.SchedBound
import Verif.Proofs.WholeKeep
import Verif.Props.IssueQueue
import Verif.Props.Dispatch
import Verif.Spec.Sched
/-
The issue queues in the in-order back end: the invariant.
-/
namespace Verif.SchedProofs
open Verif.Spine Verif.SpineProofs Verif.Sched
open Verif.Decode (DecInst MicroOp Iq decompose decodeEntry)
open Verif.IssueQueue (Uop)
open Verif.IssueWindow (queued grants hear)
open Verif.BranchWindow (Flight)
open Verif.RobQueue (insts sig)
open Verif.DispatchGroup (waiting fired)
open Verif.Dispatch (expectMask)
open Verif.Props (rob_ids win_seq window_step C106_ordered C106_squash C106_conserved C106_flush)

variable {n : Nat}

/-! ### The decoder -/

/-- The operations of an instruction read no register the instruction does not read. -/
def Sound (d : DecInst) : Prop := ∀ m ∈ decompose d,
  (m.inst.src1En = true → d.src1En = true) ∧ (m.inst.src2En = true → d.src2En = true)

theorem sound_of {d : DecInst} (h1 : d.type = .store → d.src2En = true) (h2 : d.type = .jalr → d.src1En = true) : Sound d := by
  unfold Sound decompose
  cases ht : d.type <;> simp only [] <;> first
    | (intro m hm; simp at hm; subst hm; simp; done)
    | (intro m hm; simp at hm; rcases hm with rfl | rfl <;> simp [h1, h2, ht]; done)
    | skip
  split
  · intro m hm; simp at hm; subst hm; simp
  · split
    · intro m hm; simp at hm; rcases hm with rfl | rfl <;> simp
    · intro m hm; simp at hm; rcases hm with rfl | rfl | rfl <;> simp

theorem finish_type (d : DecInst) : (Decode.decodeFinish d).type = d.type ∧ (Decode.decodeFinish d).src1En = d.src1En ∧
    (Decode.decodeFinish d).src2En = d.src2En := by
  unfold Decode.decodeFinish
  simp only
  split <;> split <;> exact ⟨rfl, rfl, rfl⟩

theorem system_type (w : BitVec 32) (d : DecInst) : (Decode.decodeSystem w d).type ≠ .store ∧ (Decode.decodeSystem w d).type ≠ .jalr := by
  unfold Decode.decodeSystem
  simp only
  repeat' split
  all_goals simp

theorem sound_decode (w : BitVec 32) (pf : Bool) : Sound (decodeEntry w pf) := by
  cases pf with
  | true => exact sound_of (by simp [decodeEntry]) (by simp [decodeEntry])
  | false =>
    have h : decodeEntry w false = Decode.decodeFinish (Decode.decodeOpcode w (Decode.decodeFields w)) := rfl
    obtain ⟨h1, h2, h3⟩ := finish_type (Decode.decodeOpcode w (Decode.decodeFields w))
    rw [h]
    refine sound_of ?_ ?_
    all_goals
      rw [h1]
      first | rw [h3] | rw [h2]
      unfold Decode.decodeOpcode
      split
      all_goals first
        | (intro hx; exact absurd hx (system_type _ _).1)
        | (intro hx; exact absurd hx (system_type _ _).2)
        | (simp; done)
        | (simp only; intro hx; split at hx <;> (try split at hx) <;> cases hx)

/-- What holds of every decoded instruction holds of those in rename and dispatch. -/
structure Decd (G : DecInst → Prop) (s : St n) : Prop where
  lat : ∀ d ∈ s.lat.filterMap id, G d.dec
  dis : ∀ u ∈ waiting s.dis, G u.dec

section
variable {k : Spine.Cfg} {s : St n} {bw : BranchWindow.Sys n} {rw : RenWindow.Sys} {Z : List (Flight n × Sig)} {g : Nat → BitVec 3}
variable {c : Spine.Cyc n}

theorem lat_old {d : DInst n} (hl : Link k s bw rw Z g) (hd : d ∈ (Spine.step k s c).lat.filterMap id) :
    (∃ e ∈ s.lat.filterMap id, d.dec = e.dec ∧ d.uid = e.uid) ∨ some d.dec ∈ decoded c := by
  obtain ⟨o, ho, e⟩ := List.mem_filterMap.1 hd
  have e : o = some d := e
  subst e
  have ho : some d ∈ latNext k s c := ho
  unfold latNext at ho
  simp only at ho
  split at ho
  · obtain ⟨_, _, e⟩ := List.mem_map.1 ho; cases e
  · split at ho
    · obtain ⟨o2, ho2, e⟩ := List.mem_map.1 ho
      cases o2 with
      | none => cases e
      | some x =>
        cases e
        exact .inr ((hl.numbered c).2 x (List.mem_filterMap.2 ⟨_, ho2, rfl⟩)).1
    · left
      generalize renSlots k s = sl at ho
      generalize s.lat = l at ho ⊢
      induction l generalizing sl with
      | nil => cases sl <;> simp at ho
      | cons x l ih =>
        cases sl with
        | nil => simp at ho
        | cons y sl =>
          rw [List.zipWith_cons_cons] at ho
          rcases List.mem_cons.1 ho with e | e
          · split at e
            · cases e
            · cases x with
              | none => cases e
              | some x => cases e; exact ⟨x, List.mem_filterMap.2 ⟨some x, List.mem_cons_self, rfl⟩, rfl, rfl⟩
          · obtain ⟨e', h1, h2⟩ := ih sl e
            obtain ⟨o, h3, h4⟩ := List.mem_filterMap.1 h1
            exact ⟨e', List.mem_filterMap.2 ⟨o, List.mem_cons_of_mem _ h3, h4⟩, h2⟩

/-- Where the instructions waiting for dispatch come from. -/
theorem wait_from (hl : Link k s bw rw Z g) {u : Dispatch.Inst n} (hu : u ∈ waiting (Spine.step k s c).dis) :
    (∃ v ∈ waiting s.dis, u.ftq = v.ftq ∧ u.dec = v.dec) ∨ ∃ x ∈ s.lat.filterMap id, u.ftq = x.uid ∧ u.dec = x.dec := by
  by_cases hb : flush s c = true ∨ s.idu.latch.mispred = true
  · rw [(emptied hb).1] at hu; cases hu
  · have hf : flush s c = false := by cases h : flush s c <;> simp [h] at hb ⊢
    have hm : s.idu.latch.mispred = false := by cases h : s.idu.latch.mispred <;> simp [h] at hb ⊢
    obtain ⟨h1, h2⟩ := hl.slots
    obtain ⟨_, _, e3, _, e5, _⟩ := group_facts _ _ h1 h2
    have hwait := Proofs.Dispatch.step_waiting k.dis (Proofs.Dispatch.wf_reach hl.dr) (disIn k s c) hf hm
    change (fired (disOut k s c)).map (·.inst) ++ waiting (Spine.step k s c).dis =
      (waiting s.dis).map _ ++ (DispatchGroup.received (disOut k s c) (disIn k s c)).map _ at hwait
    have hu := List.mem_append_right ((fired (disOut k s c)).map (·.inst)) hu
    rw [hwait] at hu
    rcases List.mem_append.1 hu with hu | hu
    · obtain ⟨v, hv, rfl⟩ := List.mem_map.1 hu
      exact .inl ⟨v, hv, rfl, rfl⟩
    · obtain ⟨v, hv, rfl⟩ := List.mem_map.1 hu
      have hv : v ∈ (if (disOut k s c).ready then (renOut (renSlots k s) s.lat).filterMap id else []) := hv
      split at hv
      · rw [e3] at hv
        obtain ⟨x, hx, rfl⟩ := List.mem_map.1 hv
        refine .inr ⟨x.1, ?_, rfl, rfl⟩
        rw [e5]; exact List.mem_append_left _ (List.mem_map_of_mem hx)
      · cases hv

theorem decd_reach (G : DecInst → Prop) (hG : ∀ w pf, G (decodeEntry w pf)) (hk : Good k) (h : Spine.Reach k s) : Decd G s := by
  induction h with
  | init =>
    refine ⟨fun d hd => ?_, fun u hu => ?_⟩
    · exfalso
      have hd : d ∈ (List.replicate k.dis.banks none).filterMap id := hd
      obtain ⟨o, ho, e⟩ := List.mem_filterMap.1 hd
      rw [(List.mem_replicate.1 ho).2] at e; cases e
    · exfalso
      have hu : u ∈ (List.replicate k.dis.banks none).filterMap id := hu
      obtain ⟨o, ho, e⟩ := List.mem_filterMap.1 hu
      rw [(List.mem_replicate.1 ho).2] at e; cases e
  | step c hr _ ih =>
    obtain ⟨bw, rw, Z, g, hl⟩ := link_reach hk hr
    refine ⟨fun d hd => ?_, fun u hu => ?_⟩
    · rcases lat_old hl hd with ⟨e, he, h1, _⟩ | h1
      · rw [h1]; exact ih.lat e he
      · obtain ⟨o, _, he⟩ := List.mem_map.1 h1
        cases o with
        | none => cases he
        | some x =>
          have he : decodeEntry x.1 x.2 = d.dec := by simpa using he
          rw [← he]; exact hG _ _
    · rcases wait_from hl hu with ⟨v, hv, _, h1⟩ | ⟨v, hv, _, h1⟩
      · rw [h1]; exact ih.dis v hv
      · rw [h1]; exact ih.lat v hv

/-! ### One cycle of the in-order part -/

/-- Where the contents of the reorder buffer come from. -/
theorem rob_old (hk : Good k) (hl : Link k s bw rw Z g) {v : Rob.Uop} (hv : v ∈ insts k.L (Spine.step k s c).rob) :
    flush s c = false ∧ ((∃ u ∈ insts k.L s.rob, sig v = sig u) ∨
      s.idu.latch.mispred = false ∧ ∃ a ∈ fired (disOut k s c), sig v = sig (toUop a)) := by
  obtain ⟨_, _, rest, _, hins, _, _, _, hs⟩ := hl.split hk c
  have hm := List.mem_map_of_mem (f := sig) hv
  rw [hs] at hm
  cases hf : flush s c with
  | true => rw [hf, if_pos rfl] at hm; cases hm
  | false =>
    refine ⟨rfl, ?_⟩
    rw [hf, if_neg (by simp)] at hm
    cases hmi : s.idu.latch.mispred with
    | true =>
      rw [hmi, if_pos rfl] at hm
      obtain ⟨u, hu, he⟩ := List.mem_map.1 hm
      refine .inl ⟨u, ?_, he.symm⟩
      rw [← Proofs.Rob.upTo_prefix s.redirect (insts k.L s.rob)]; exact List.mem_append_left _ hu
    | false =>
      rw [hmi, if_neg (by simp)] at hm
      rcases List.mem_append.1 hm with hm | hm
      · obtain ⟨u, hu, he⟩ := List.mem_map.1 hm
        exact .inl ⟨u, by rw [hins]; exact List.mem_append_right _ hu, he.symm⟩
      · obtain ⟨a, ha, he⟩ := List.mem_map.1 hm
        exact .inr ⟨rfl, a, ha, he.symm⟩

theorem fired_wait (hl : Link k s bw rw Z g) {a : Dispatch.Alloc n} (ha : a ∈ fired (disOut k s c)) :
    ∃ u ∈ waiting s.dis, a.inst = Dispatch.scrub (disIn k s c) u := by
  obtain ⟨r, hr⟩ := Props.C24_in_order hl.dr (disIn k s c)
  have : a.inst ∈ (waiting s.dis).map (Dispatch.scrub (disIn k s c)) := by
    rw [← hr]; exact List.mem_append_left _ (List.mem_map_of_mem ha)
  obtain ⟨u, hu, e⟩ := List.mem_map.1 this
  exact ⟨u, hu, e.symm⟩

/-- The instructions dispatched, in order. -/
theorem fired_sorted (hk : Good k) (h : Spine.Reach k s) (hl : Link k s bw rw Z g) :
    ((fired (disOut k s c)).map (·.inst.ftq)).Pairwise (· < ·) := by
  obtain ⟨r, hr⟩ := Props.C24_in_order hl.dr (disIn k s c)
  have ho := (C106_ordered hk h).1
  unfold inflight at ho
  rw [List.pairwise_append, List.pairwise_append] at ho
  have ho := ho.1.2.1
  have he : disIds s = ((waiting s.dis).map (Dispatch.scrub (disIn k s c))).map (·.ftq) := by
    rw [List.map_map]; rfl
  rw [he, ← hr, List.map_append, List.pairwise_append] at ho
  have := ho.1
  rw [List.map_map] at this
  exact this

theorem fired_dis (hl : Link k s bw rw Z g) {a : Dispatch.Alloc n} (ha : a ∈ fired (disOut k s c)) : a.inst.ftq ∈ disIds s := by
  obtain ⟨u, hu, e⟩ := fired_wait hl ha
  rw [e]; exact List.mem_map.2 ⟨u, hu, rfl⟩

theorem rob_lt_dis (hk : Good k) (h : Spine.Reach k s) {j d : Nat} (hj : j ∈ robIds k s) (hd : d ∈ disIds s ++ latIds s) : j < d := by
  have ho := (C106_ordered hk h).1
  unfold inflight at ho
  rw [List.append_assoc, List.pairwise_append] at ho
  exact ho.2.2 j hj d hd

theorem id_inj (hk : Good k) (h : Spine.Reach k s) {u v : Rob.Uop} (hu : u ∈ insts k.L s.rob) (hv : v ∈ insts k.L s.rob)
    (he : u.id = v.id) : u = v := by
  have ho := (C106_ordered hk h).1
  unfold inflight robIds at ho
  rw [List.append_assoc, List.pairwise_append] at ho
  have := ho.1
  rw [List.pairwise_map] at this
  exact pair_inj (f := fun u : Rob.Uop => u.id) (this.imp fun hlt => Nat.ne_of_lt hlt) hu hv he

/-- In an ordinary cycle: what was dispatched and what waits are what waited and what was decoded. -/
theorem ids_run (hk : Good k) (h : Spine.Reach k s) (hl : Link k s bw rw Z g) (hv : Spine.Valid k s c) (hf : flush s c = false)
    (hm : s.idu.latch.mispred = false) :
    (fired (disOut k s c)).map (·.inst.ftq) ++ (disIds (Spine.step k s c) ++ latIds (Spine.step k s c)) =
      (disIds s ++ latIds s) ++ accepted k s c := by
  have hc := C106_conserved hk h hv hf hm
  obtain ⟨_, _, rest, _, hins, _, _, _, hs⟩ := hl.split hk c
  rw [hf, if_neg (by simp), hm, if_neg (by simp)] at hs
  have hids := congrArg (List.map Prod.fst) hs
  rw [List.map_append, List.map_map, List.map_map, List.map_map] at hids
  have hids : robIds k (Spine.step k s c) = rest.map (·.id) ++ (fired (disOut k s c)).map (·.inst.ftq) := hids
  have hold : robIds k s = (retired s c).map (·.id) ++ rest.map (·.id) := by unfold robIds; rw [hins, List.map_append]
  unfold inflight at hc
  rw [hids, hold] at hc
  simp only [List.append_assoc] at hc
  have hc := List.append_cancel_left hc
  have hc := List.append_cancel_left hc
  rw [hc, List.append_assoc]

theorem next_le : s.next ≤ (Spine.step k s c).next := Nat.le_add_right _ _

/-- Nothing new before dispatch but what is decoded. -/
theorem young_from (hk : Good k) (h : Spine.Reach k s) (hl : Link k s bw rw Z g) (hv : Spine.Valid k s c) {d : Nat}
    (hd : d ∈ disIds (Spine.step k s c) ++ latIds (Spine.step k s c)) : d ∈ disIds s ++ latIds s ∨ s.next ≤ d := by
  by_cases hb : flush s c = true ∨ s.idu.latch.mispred = true
  · obtain ⟨e1, e2, _⟩ := emptied (k := k) hb
    unfold disIds latIds at hd
    rw [e1, e2] at hd; cases hd
  · have hf : flush s c = false := by cases h : flush s c <;> simp [h] at hb ⊢
    have hm : s.idu.latch.mispred = false := by cases h : s.idu.latch.mispred <;> simp [h] at hb ⊢
    have hd := List.mem_append_right ((fired (disOut k s c)).map (·.inst.ftq)) hd
    rw [ids_run hk h hl hv hf hm] at hd
    rcases List.mem_append.1 hd with hd | hd
    · exact .inl hd
    · right
      unfold accepted at hd
      obtain ⟨i, _, e⟩ := List.mem_range'.1 hd
      omega

/-- An instruction that is not finished stays unless it is squashed. -/
theorem stays (hk : Good k) (h : Spine.Reach k s) (hl : Link k s bw rw Z g) (hv : Spine.Valid k s c) (hf : flush s c = false)
    {v : Rob.Uop} (hvm : v ∈ insts k.L s.rob) (hnc : Rob.complete v = false) {f : Flight n} (hfm : f ∈ bw.win)
    (hseq : f.seq = v.id) (hnk : BranchWindow.killed (Idu.combBranch s.idu) f = false) :
    v.id ∈ robIds k (Spine.step k s c) := by
  cases hm : s.idu.latch.mispred with
  | true =>
    obtain ⟨b, hb, hbr, hbt, _, _, _, hin⟩ := C106_squash hk h hv hm
    obtain ⟨e1, e2, _⟩ := emptied (k := k) (c := c) (.inr hm)
    have hro : inflight k (Spine.step k s c) = robIds k (Spine.step k s c) := by
      unfold inflight disIds latIds; rw [e1, e2]; simp
    rw [← hro, hin]
    obtain ⟨z, hz, hzt, hzr⟩ := hl.mis hm
    have hzb : z.1.seq = b.id := by
      obtain ⟨u, hu, he⟩ := List.mem_map.1 (show z.2 ∈ (insts k.L s.rob).map sig by rw [hl.sigs]; exact List.mem_map_of_mem hz)
      obtain ⟨W, hW⟩ := Proofs.Rob.rinv_reach hk.lines hl.qr
      have hub : u = b := pair_inj (f := fun u : Rob.Uop => u.robIdx) (rob_inj hW) hu hb (by
        rw [hbr, ← hzr, ← he]; rfl)
      rw [(hl.j z hz).seq, ← he, ← hub]; rfl
    refine List.mem_filter.2 ⟨?_, ?_⟩
    · unfold inflight; rw [List.append_assoc]
      exact List.mem_append_left _ (List.mem_map_of_mem hvm)
    · have hki := IduProofs.killed_iff (IduProofs.inv_reach hl.br) (by rw [hl.idu]; exact hm) (hl.memZ hz)
        (by rw [hl.idu]; exact hzt) hfm
      rw [hl.idu, hnk, hzb, hseq] at hki
      simp only [Bool.false_eq_true, false_iff] at hki
      simpa using hki
  | false =>
    obtain ⟨_, _, rest, _, hins, _, _, _, hs⟩ := hl.split hk c
    rw [hf, if_neg (by simp), hm, if_neg (by simp)] at hs
    have hnr : v ∉ retired s c := by
      intro hr
      obtain ⟨W, hW⟩ := Proofs.Rob.rinv_reach hk.lines hl.qr
      rcases Proofs.Rob.retire_cases hW (robIn0 s c) with e | e | ⟨u, r, e1, _, e3, e4, _⟩
      · have : v ∈ ([] : List Rob.Uop) := e.1 ▸ hr
        cases this
      · rw [(e.2.2.2.1 v hr).1] at hnc; cases hnc
      · have hr' : v ∈ [u] := e1 ▸ hr
        have hvu := List.mem_singleton.1 hr'
        have hfl : (Rob.isFlush u || (robIn0 s c).intReq) = false := by rw [← e4]; exact hf
        rw [Bool.or_eq_false_iff] at hfl
        have := e3 hfl.2
        rw [← hvu, hnc] at this; cases this
    have hvr : v ∈ rest := by
      rw [hins] at hvm
      exact (List.mem_append.1 hvm).resolve_left hnr
    have : sig v ∈ (insts k.L (Spine.step k s c).rob).map sig := by
      rw [hs]; exact List.mem_append_left _ (List.mem_map_of_mem hvr)
    obtain ⟨v', hv', he⟩ := List.mem_map.1 this
    have : v'.id = v.id := congrArg Prod.fst he
    rw [← this]; exact List.mem_map_of_mem hv'

/-- A flight whose instruction stays has survived. -/
theorem flight_next (hl : Link k s bw rw Z g) {Z' : List (Flight n × Sig)}
    (hl' : Link k (Spine.step k s c) (BranchWindow.stepSys k.maxBr bw (iB k s c)) (RenWindow.stepSys k.P k.A n rw (iR k s c)) Z'
      (RobQueue.report g (robIn k s c))) {f : Flight n} (hf : f ∈ bw.win) (hs : f.seq ∈ robIds k (Spine.step k s c)) :
    flush s c = false ∧ BranchWindow.killed (Idu.combBranch s.idu) f = false ∧
      ∃ f' ∈ (BranchWindow.stepSys k.maxBr bw (iB k s c)).win, f'.seq = f.seq ∧ f'.mask = f.mask &&& ~~~(Idu.combBranch s.idu).clear := by
  have hin : f.seq ∈ (BranchWindow.stepSys k.maxBr bw (iB k s c)).win.map (·.seq) := by
    rw [win_seq hl']; unfold inflight; rw [List.append_assoc]; exact List.mem_append_left _ hs
  obtain ⟨f', hf', he⟩ := List.mem_map.1 hin
  have hw : (BranchWindow.stepSys k.maxBr bw (iB k s c)).win = if flush s c then [] else
      (BranchWindow.afterBcast bw).drop (iB k s c).retire ++ BranchWindow.number bw.next
      (Idu.fired bw.idu (Idu.combDecode bw.idu k.maxBr (iB k s c).entries) (renReady k s c) (flush s c)) := rfl
  have hf2 := hf'
  rw [hw] at hf2
  cases hfl : flush s c with
  | true => rw [hfl, if_pos rfl] at hf2; cases hf2
  | false =>
    rw [hfl, if_neg (by simp)] at hf2
    refine ⟨rfl, ?_⟩
    rcases List.mem_append.1 hf2 with hf2 | hf2
    · obtain ⟨f0, h1, h2, h3⟩ := IduProofs.mem_after.1 (List.mem_of_mem_drop hf2)
      rw [hl.idu] at h2 h3
      have hs0 : f0.seq = f.seq := by rw [← he, ← h3]; rfl
      have : f0 = f := IduProofs.seq_inj hl.core.sorted h1 hf hs0
      subst this
      exact ⟨h2, f', hf', he, by rw [← h3]; rfl⟩
    · exfalso
      have hge : bw.next ≤ f'.seq := by
        have := List.mem_map_of_mem (f := fun f : Flight n => f.seq) hf2
        rw [Props.number_seq] at this
        obtain ⟨i, _, e⟩ := List.mem_range'.1 this
        omega
      have := hl.core.lt f hf
      rw [hl.next] at hge
      omega

/-- The parts reported of an instruction that stays. -/
theorem cplt_old (hk : Good k) (hl : Link k s bw rw Z g) {Z' : List (Flight n × Sig)}
    (hl' : Link k (Spine.step k s c) (BranchWindow.stepSys k.maxBr bw (iB k s c)) (RenWindow.stepSys k.P k.A n rw (iR k s c)) Z'
      (RobQueue.report g (robIn k s c))) {v v' : Rob.Uop} (hv : v ∈ insts k.L s.rob) (hv' : v' ∈ insts k.L (Spine.step k s c).rob)
    (he : sig v' = sig v) {b : BitVec 3} (hb : v.cplt &&& b = 0#3)
    (hw : ∀ w ∈ c.wbs ++ c.res.map brWb, w.robIdx = v.robIdx → w.bit &&& b = 0#3) : v'.cplt &&& b = 0#3 := by
  obtain ⟨W, hW⟩ := Proofs.Rob.rinv_reach hk.lines hl.qr
  obtain ⟨W', hW'⟩ := Proofs.Rob.rinv_reach hk.lines hl'.qr
  rw [done_mem hW' hl'.done hv', show v'.robIdx = v.robIdx from congrArg (fun x : Sig => x.2.1) he]
  unfold RobQueue.report
  split
  · exact BitVec.zero_and
  · rw [← done_mem hW hl.done hv]
    have hw : ∀ w ∈ (robIn k s c).wbs, w.robIdx = v.robIdx → w.bit &&& b = 0#3 := hw
    generalize (robIn k s c).wbs = l at hw
    generalize v.cplt = m at hb
    induction l generalizing m with
    | nil => exact hb
    | cons w l ih =>
      rw [List.foldl_cons]
      refine ih (fun w hw' => hw w (List.mem_cons_of_mem _ hw')) _ ?_
      split
      · rename_i hi
        have := hw w List.mem_cons_self hi
        rw [show (m ||| w.bit) &&& b = (m &&& b) ||| (w.bit &&& b) from by
          apply BitVec.eq_of_getLsbD_eq; intro i _; simp [Bool.and_or_distrib_right], hb, this]; rfl
      · exact hb

theorem cplt_new (hk : Good k) {Z' : List (Flight n × Sig)}
    (hl' : Link k (Spine.step k s c) (BranchWindow.stepSys k.maxBr bw (iB k s c)) (RenWindow.stepSys k.P k.A n rw (iR k s c)) Z'
      (RobQueue.report g (robIn k s c))) {v' : Rob.Uop} (hv' : v' ∈ insts k.L (Spine.step k s c).rob)
    {a : Dispatch.Alloc n} (ha : a ∈ fired (disOut k s c)) (he : sig v' = sig (toUop a)) : v'.cplt = 0#3 := by
  obtain ⟨W', hW'⟩ := Proofs.Rob.rinv_reach hk.lines hl'.qr
  rw [done_mem hW' hl'.done hv']
  unfold RobQueue.report
  rw [if_pos]
  · rfl
  · refine ⟨toUop a, ?_, (congrArg (fun x : Sig => x.2.1) he).symm⟩
    show toUop a ∈ (fireRow (disOut k s c)).filterMap id
    rw [row_fired]; exact List.mem_map_of_mem ha

end

/-! ### The bit an operation is reported with -/

theorem part_bit (d : DecInst) : ∀ m ∈ decompose d, partBit d m.iq ≠ 0#3 ∧ expectMask d &&& partBit d m.iq ≠ 0#3 := by
  unfold partBit expectMask decompose
  cases ht : d.type <;> simp only [] <;> first
    | (intro m hm; simp at hm; subst hm; simp [Dispatch.cpltGroup]; done)
    | (intro m hm; simp at hm; rcases hm with rfl | rfl <;> simp [Dispatch.cpltGroup]; done)
    | skip
  by_cases h2 : d.amoOp = 2#7
  · intro m hm; simp [h2] at hm; subst hm; simp [h2, Dispatch.cpltGroup]
  · by_cases h3 : d.amoOp = 3#7
    · intro m hm; simp [h3] at hm; rcases hm with rfl | rfl <;> simp [h3, Dispatch.cpltGroup]
    · intro m hm; simp [h2, h3] at hm; rcases hm with rfl | rfl | rfl <;> simp [h2, h3, Dispatch.cpltGroup]


/-! ### The queues -/

section
variable {k : Sched.Cfg} {s s' : State n} {c : Sched.Cyc n} {bw : BranchWindow.Sys n} {rw : RenWindow.Sys}
variable {Z : List (Flight n × Sig)} {g : Nat → BitVec 3}

theorem queues_some (h : ∀ q, ∃ t, iqStep k s c q = some t) : ∃ s', Sched.step k s c = some s' := by
  obtain ⟨a, ha⟩ := h .int
  obtain ⟨b, hb⟩ := h .ld
  obtain ⟨d, hd⟩ := h .sta
  obtain ⟨e, he⟩ := h .std
  obtain ⟨f, hf⟩ := h .br
  simp [Sched.step, queues, ha, hb, hd, he, hf]

theorem step_some (h : Sched.step k s c = some s') : (∀ q, iqStep k s c q = some (s'.iq q)) ∧
    s'.sp = Spine.step k.sp s.sp (hw k s c) ∧
    (∀ u, s'.inst u = (((fired (dis k s c)).find? (fun a => a.inst.ftq == u)).map (·.inst)).getD (s.inst u)) ∧
    (∀ u, s'.ann u = (decide (u ∈ robIds k.sp s.sp) &&
        (s.ann u || ((s.inst u).dec.destEn && c.hw.wakes.contains (s.inst u).destPreg)))) ∧
    ∀ q, s'.out q = s.out q ++ (issued k s c q).map (·.id) := by
  unfold Sched.step queues at h
  simp only [Option.map_eq_some_iff, Option.bind_eq_some_iff] at h
  obtain ⟨iq, ⟨a, ha, b, hb, d, hd, e, he, f, hf, hq⟩, rfl⟩ := h
  subst hq
  refine ⟨fun q => ?_, rfl, fun _ => rfl, fun _ => rfl, fun _ => rfl⟩
  cases q <;> assumption

/-- A request of dispatch. -/
def pkt (a : Dispatch.Alloc n) (m : MicroOp) : Dispatch.Packet n :=
  { mop := m
    src1Preg := if m.src1FromDest then a.inst.destPreg else a.inst.src1Preg
    src1Busy := m.src1BusyForced.getD a.src1Busy
    src2Preg := a.inst.src2Preg
    src2Busy := a.src2Busy
    of := a }

theorem mem_packets {a : Dispatch.Alloc n} {p : Dispatch.Packet n} : p ∈ Dispatch.packets a ↔ ∃ m ∈ decompose a.inst.dec, p = pkt a m := by
  unfold Dispatch.packets
  rw [List.mem_map]
  exact ⟨fun ⟨m, h, e⟩ => ⟨m, h, e.symm⟩, fun ⟨m, h, e⟩ => ⟨m, h, e.symm⟩⟩

theorem sent_all (hl : Link k.sp s.sp bw rw Z g) (q : Iq) : Dispatch.sent (dis k s c) q =
    (fired (dis k s c)).flatMap (fun a => (Dispatch.packets a).filter (fun p => p.mop.iq = q)) :=
  Props.C24_all_or_nothing hl.dr (disIn k.sp s.sp (hw k s c)) q

theorem mem_enq (hl : Link k.sp s.sp bw rw Z g) {q : Iq} {x : Uop n} : x ∈ (iqIn k s c q).enq ↔
    ∃ a ∈ fired (dis k s c), ∃ m ∈ decompose a.inst.dec, m.iq = q ∧ x = toIq k (pkt a m) := by
  show x ∈ (Dispatch.sent (dis k s c) q).map (toIq k) ↔ _
  rw [sent_all hl]
  constructor
  · intro h
    obtain ⟨p, hp, rfl⟩ := List.mem_map.1 h
    obtain ⟨a, ha, hp⟩ := List.mem_flatMap.1 hp
    obtain ⟨hp, hq⟩ := List.mem_filter.1 hp
    obtain ⟨m, hm, rfl⟩ := mem_packets.1 hp
    exact ⟨a, ha, m, hm, of_decide_eq_true hq, rfl⟩
  · rintro ⟨a, ha, m, hm, hq, rfl⟩
    refine List.mem_map.2 ⟨pkt a m, List.mem_flatMap.2 ⟨a, ha, List.mem_filter.2 ⟨mem_packets.2 ⟨m, hm, rfl⟩, ?_⟩⟩, rfl⟩
    show decide (m.iq = q) = true
    simpa using hq

theorem iq_valid (hk : Good k.sp) (hr : Spine.Reach k.sp s.sp) (hl : Link k.sp s.sp bw rw Z g) (c : Sched.Cyc n) (q : Iq) :
    IssueWindow.Valid k.sp.P (k.size q) (s.iq q) (iqIn k s c q) := by
  refine ⟨?_, fun x hx b => ?_⟩
  · show ((Dispatch.sent (dis k s c) q).map (toIq k)).length ≤ _
    rw [List.length_map]
    exact (Props.C24_room hl.dr (disIn k.sp s.sp (hw k s c)) q).1
  · obtain ⟨a, ha, m, _, _, rfl⟩ := (mem_enq hl).1 hx
    obtain ⟨u, hu, e⟩ := fired_wait hl ha
    obtain ⟨h1, h2, h3⟩ := (bound_reach hk hr).dis u hu
    have e1 : a.inst.destPreg < k.sp.P := by rw [e]; exact h1
    have e2 : a.inst.src1Preg < k.sp.P := by rw [e]; exact h2
    have e3 : a.inst.src2Preg < k.sp.P := by rw [e]; exact h3
    cases b with
    | true => exact e3
    | false =>
      show (if m.src1FromDest then a.inst.destPreg else a.inst.src1Preg) < _
      split <;> assumption

/-- The register a source in a queue names. -/
def srcReg (x : IssueQueue.Src) : Option Nat := if x.en then some x.preg else none

/-- An operation in a queue. -/
structure QOp (k : Sched.Cfg) (s : State n) (bw : BranchWindow.Sys n) (q : Iq) (x : Uop n) : Prop where
  mem : ∃ v ∈ insts k.sp.L s.sp.rob, v.id = x.id ∧ v.robIdx = x.robIdx ∧ v.robFlag = x.robFlag ∧
    v.cplt &&& partBit (s.inst x.id).dec q = 0#3
  flight : ∃ f ∈ bw.win, f.seq = x.id ∧ f.mask = x.brMask
  op : ∃ m ∈ decompose (s.inst x.id).dec, m.iq = q ∧ x.op = k.kind m.op ∧
    (∀ b, srcReg (x.src b) = reads (s.inst x.id) m b) ∧
    ∀ b j, j ∈ robIds k.sp s.sp → feeds s j x.id m b → (x.src b).busy = false → s.ann j = true

structure Inv (k : Sched.Cfg) (s : State n) (bw : BranchWindow.Sys n) : Prop where
  iqr : ∀ q, IssueWindow.Reach k.sp.P (k.size q) (k.policy q) (k.ports q) (s.iq q)
  expect : ∀ v ∈ insts k.sp.L s.sp.rob, v.expect = expectMask (s.inst v.id).dec
  table : ∀ j ∈ robIds k.sp s.sp, (s.inst j).dec.destEn = true → s.ann j = false → s.sp.dis.busy (s.inst j).destPreg = true
  once : ∀ u ∈ robIds k.sp s.sp, ∀ q, ((queued (s.iq q)).map (·.id)).count u + (s.out q).count u =
    if (part s u q).isSome then 1 else 0
  past : ∀ q, ∀ i ∈ s.out q, i < s.sp.next ∧ ∀ d ∈ disIds s.sp ++ latIds s.sp, i < d
  ops : ∀ q, ∀ x ∈ queued (s.iq q), QOp k s bw q x

theorem inst_old (h : Sched.step k s c = some s') (hl : Link k.sp s.sp bw rw Z g) (hk : Good k.sp) (hr : Spine.Reach k.sp s.sp)
    {u : Nat} (hu : u ∈ robIds k.sp s.sp) : s'.inst u = s.inst u := by
  rw [(step_some h).2.2.1 u]
  have : (fired (dis k s c)).find? (fun a => a.inst.ftq == u) = none := by
    rw [List.find?_eq_none]
    intro a ha he
    have he : a.inst.ftq = u := by simpa using he
    have := rob_lt_dis hk hr hu (List.mem_append_left _ (fired_dis hl ha))
    omega
  rw [this]; rfl

theorem inst_new (h : Sched.step k s c = some s') (hl : Link k.sp s.sp bw rw Z g) (hk : Good k.sp) (hr : Spine.Reach k.sp s.sp)
    {a : Dispatch.Alloc n} (ha : a ∈ fired (dis k s c)) : s'.inst a.inst.ftq = a.inst := by
  rw [(step_some h).2.2.1]
  have hs := fired_sorted (c := hw k s c) hk hr hl
  rw [List.pairwise_map] at hs
  cases hfi : (fired (dis k s c)).find? (fun b => b.inst.ftq == a.inst.ftq) with
  | none => exact absurd (List.find?_eq_none.1 hfi a ha) (by simp)
  | some b =>
    have hb := List.mem_of_find?_eq_some hfi
    have he : b.inst.ftq = a.inst.ftq := by simpa using List.find?_some hfi
    have : b = a := pair_inj (f := fun a : Dispatch.Alloc n => a.inst.ftq) (hs.imp fun hlt => Nat.ne_of_lt hlt) hb ha he
    rw [this]; rfl

/-- The reorder buffer's numbers after a cycle. -/
theorem ids_from (hk : Good k.sp) (hl : Link k.sp s.sp bw rw Z g) {j : Nat}
    (hj : j ∈ robIds k.sp (Spine.step k.sp s.sp (hw k s c))) : flush s.sp (hw k s c) = false ∧
    (j ∈ robIds k.sp s.sp ∨ s.sp.idu.latch.mispred = false ∧ ∃ a ∈ fired (dis k s c), j = a.inst.ftq) := by
  obtain ⟨v, hv, rfl⟩ := List.mem_map.1 hj
  obtain ⟨h1, h2⟩ := rob_old hk hl hv
  refine ⟨h1, ?_⟩
  rcases h2 with ⟨u, hu, e⟩ | ⟨hm, a, ha, e⟩
  · left
    rw [show v.id = u.id from congrArg Prod.fst e]
    exact List.mem_map_of_mem hu
  · exact .inr ⟨hm, a, ha, congrArg Prod.fst e⟩

theorem fired_quiet {a : Dispatch.Alloc n} (ha : a ∈ fired (dis k s c)) :
    flush s.sp (hw k s c) = false ∧ s.sp.idu.latch.mispred = false := by
  constructor
  · cases h : flush s.sp (hw k s c) with
    | false => rfl
    | true =>
      have : fired (dis k s c) = [] := (blocked (k := k.sp) (.inl h)).2
      rw [this] at ha; cases ha
  · cases h : s.sp.idu.latch.mispred with
    | false => rfl
    | true =>
      have : fired (dis k s c) = [] := (blocked (k := k.sp) (c := hw k s c) (.inr (.inl h))).2
      rw [this] at ha; cases ha

theorem combBranch_clear (i : Idu.State n) : (Idu.combBranch i).clear = i.latch.clear := by
  unfold Idu.combBranch; split <;> rfl

/-- In a queue, killed is what it is in the window of decode. -/
theorem killed_eq (q : Iq) {x : Uop n} {f : Flight n} (he : f.mask = x.brMask) (hf : flush s.sp (hw k s c) = false) :
    IssueWindow.killed (iqIn k s c q) x = BranchWindow.killed (Idu.combBranch s.sp.idu) f := by
  unfold IssueWindow.killed BranchWindow.killed
  show (flush s.sp (hw k s c) || _) = _
  rw [hf, he, Bool.false_or]; rfl

theorem new_not_killed (q : Iq) {a : Dispatch.Alloc n} (ha : a ∈ fired (dis k s c)) (x : Uop n) :
    IssueWindow.killed (iqIn k s c q) x = false := by
  obtain ⟨h1, h2⟩ := fired_quiet ha
  unfold IssueWindow.killed
  show (flush s.sp (hw k s c) || ((Idu.combBranch s.sp.idu).mispred && _)) = false
  rw [h1, show (Idu.combBranch s.sp.idu).mispred = false from by unfold Idu.combBranch; rw [h2]; rfl]
  rfl

/-- The queue after a cycle. -/
theorem queue_step (hk : Good k.sp) (hr : Spine.Reach k.sp s.sp) (hl : Link k.sp s.sp bw rw Z g) (I : Inv k s bw)
    (h : Sched.step k s c = some s') (q : Iq) : ∃ rest, (queued (s.iq q)).Perm (issued k s c q ++ rest) ∧
      (queued (s'.iq q)).Perm ((((rest ++ (iqIn k s c q).enq).map (hear c.hw.wakes)).filter
        (fun u => !IssueWindow.killed (iqIn k s c q) u)).map (IssueWindow.scrub (iqIn k s c q))) := by
  obtain ⟨t, rest, h1, h2, h3, _⟩ := Props.C23_conservation (I.iqr q) (iqIn k s c q) (iq_valid hk hr hl c q)
  have := (step_some h).1 q
  rw [show iqStep k s c q = some t from h1] at this
  cases this
  exact ⟨rest, h2, h3⟩

/-- Where an operation in a queue comes from. -/
theorem queue_from (hk : Good k.sp) (hr : Spine.Reach k.sp s.sp) (hl : Link k.sp s.sp bw rw Z g) (I : Inv k s bw)
    (h : Sched.step k s c = some s') {q : Iq} {x : Uop n} (hx : x ∈ queued (s'.iq q)) :
    ∃ y, (y ∈ queued (s.iq q) ∨ y ∈ (iqIn k s c q).enq) ∧ IssueWindow.killed (iqIn k s c q) y = false ∧
      x = IssueWindow.scrub (iqIn k s c q) (hear c.hw.wakes y) := by
  obtain ⟨rest, h1, h2⟩ := queue_step hk hr hl I h q
  obtain ⟨z, hz, rfl⟩ := List.mem_map.1 (h2.mem_iff.1 hx)
  obtain ⟨hz, hn⟩ := List.mem_filter.1 hz
  obtain ⟨y, hy, rfl⟩ := List.mem_map.1 hz
  refine ⟨y, ?_, by rw [Bool.not_eq_true'] at hn; exact hn, rfl⟩
  rcases List.mem_append.1 hy with hy | hy
  · exact .inl (h1.mem_iff.2 (List.mem_append_right _ hy))
  · exact .inr hy

/-! ### One cycle -/

theorem expect_step (hk : Good k.sp) (hr : Spine.Reach k.sp s.sp) (hl : Link k.sp s.sp bw rw Z g) (I : Inv k s bw)
    (h : Sched.step k s c = some s') : ∀ v ∈ insts k.sp.L s'.sp.rob, v.expect = expectMask (s'.inst v.id).dec := by
  intro v hv
  rw [(step_some h).2.1] at hv
  rcases (rob_old hk hl hv).2 with ⟨u, hu, e⟩ | ⟨_, a, ha, e⟩
  · have e1 : v.id = u.id := congrArg Prod.fst e
    have e2 : v.expect = u.expect := congrArg (fun x : Sig => x.2.2.2.2) e
    rw [e1, e2, inst_old h hl hk hr (List.mem_map_of_mem hu)]
    exact I.expect u hu
  · have e1 : v.id = a.inst.ftq := congrArg Prod.fst e
    have e2 : v.expect = expectMask a.inst.dec := congrArg (fun x : Sig => x.2.2.2.2) e
    rw [e1, e2, inst_new h hl hk hr ha]

theorem table_step (hk : Good k.sp) (hr : Spine.Reach k.sp s.sp) (hl : Link k.sp s.sp bw rw Z g) (I : Inv k s bw)
    (h : Sched.step k s c = some s') : ∀ j ∈ robIds k.sp s'.sp, (s'.inst j).dec.destEn = true → s'.ann j = false →
      s'.sp.dis.busy (s'.inst j).destPreg = true := by
  intro j hj hd ha
  rw [(step_some h).2.1] at hj ⊢
  have hb : ∀ p, (Spine.step k.sp s.sp (hw k s c)).dis.busy p =
      ((fired (dis k s c)).any (fun a => a.inst.dec.destEn && a.inst.destPreg == p) ||
        (s.sp.dis.busy p && !c.hw.wakes.contains p)) := by
    intro p
    exact congrArg (· || (s.sp.dis.busy p && !c.hw.wakes.contains p))
      (Proofs.Dispatch.fired_any k.sp.dis s.sp.dis (disIn k.sp s.sp (hw k s c)) p)
  rw [hb]
  rcases (ids_from hk hl hj).2 with hj | ⟨_, a, hfa, rfl⟩
  · rw [inst_old h hl hk hr hj] at hd ⊢
    rw [(step_some h).2.2.2.1 j, decide_eq_true hj, Bool.true_and, Bool.or_eq_false_iff, hd, Bool.true_and] at ha
    rw [I.table j hj hd ha.1, ha.2]; simp
  · rw [inst_new h hl hk hr hfa] at hd ⊢
    rw [List.any_eq_true.2 ⟨a, hfa, by simp [hd]⟩]; rfl

theorem issued_mem (I : Inv k s bw) {q : Iq} {x : Uop n} (hx : x ∈ issued k s c q) : x ∈ queued (s.iq q) ∧ IssueWindow.ready x := by
  obtain ⟨gr, hg, he⟩ := List.mem_filterMap.1 hx
  obtain ⟨u, hu, he2, hrd, _⟩ := Props.C23_sound (I.iqr q) (iqIn k s c q) (x := gr.1) (p := gr.2) hg
  rw [he2] at he
  cases he
  exact ⟨hu, hrd⟩

theorem queued_rob (I : Inv k s bw) {q : Iq} {x : Uop n} (hx : x ∈ queued (s.iq q)) : x.id ∈ robIds k.sp s.sp := by
  obtain ⟨v, hv, e, _⟩ := (I.ops q x hx).mem
  rw [← e]; exact List.mem_map_of_mem hv

theorem past_step (hk : Good k.sp) (hr : Spine.Reach k.sp s.sp) (hl : Link k.sp s.sp bw rw Z g) (hv : Sched.Valid k s c) (I : Inv k s bw)
    (h : Sched.step k s c = some s') : ∀ q, ∀ i ∈ s'.out q, i < s'.sp.next ∧ ∀ d ∈ disIds s'.sp ++ latIds s'.sp, i < d := by
  intro q i hi
  rw [(step_some h).2.1]
  rw [(step_some h).2.2.2.2 q] at hi
  have key : i < s.sp.next ∧ ∀ d ∈ disIds s.sp ++ latIds s.sp, i < d := by
    rcases List.mem_append.1 hi with hi | hi
    · exact I.past q i hi
    · obtain ⟨x, hx, rfl⟩ := List.mem_map.1 hi
      have hrob := queued_rob I (issued_mem I hx).1
      refine ⟨(C106_ordered hk hr).2 _ ?_, fun d hd => rob_lt_dis hk hr hrob hd⟩
      unfold inflight; rw [List.append_assoc]; exact List.mem_append_left _ hrob
  refine ⟨Nat.lt_of_lt_of_le key.1 next_le, fun d hd => ?_⟩
  rcases young_from hk hr hl hv.hw hd with hd | hd
  · exact key.2 d hd
  · exact Nat.lt_of_lt_of_le key.1 hd

theorem feeds_back (hk : Good k.sp) (hr : Spine.Reach k.sp s.sp) (hl : Link k.sp s.sp bw rw Z g) (h : Sched.step k s c = some s')
    {u j : Nat} {m : MicroOp} {b : Bool} (hu : u ∈ robIds k.sp s.sp) (hj : j ∈ robIds k.sp s'.sp) (hf : feeds s' j u m b) :
    j ∈ robIds k.sp s.sp ∧ feeds s j u m b := by
  obtain ⟨f1, f2, f3⟩ := hf
  have hju : j = u ∨ j < u := by
    split at f3
    · exact .inl f3.1
    · exact .inr f3
  have hjo : j ∈ robIds k.sp s.sp := by
    rcases hju with e | e
    · rw [e]; exact hu
    · rw [(step_some h).2.1] at hj
      rcases (ids_from hk hl hj).2 with hj | ⟨_, a, hfa, rfl⟩
      · exact hj
      · have := rob_lt_dis hk hr hu (List.mem_append_left _ (fired_dis hl hfa))
        omega
  rw [inst_old h hl hk hr hjo] at f1 f2
  rw [inst_old h hl hk hr hu] at f2 f3
  exact ⟨hjo, f1, f2, f3⟩

theorem reads_src {x : Uop n} {u : Dispatch.Inst n} {m : MicroOp} {b : Bool} {p : Nat} (h : srcReg (x.src b) = reads u m b)
    (hp : reads u m b = some p) : (x.src b).en = true ∧ (x.src b).preg = p := by
  rw [hp] at h
  unfold srcReg at h
  split at h
  · exact ⟨by assumption, by simpa using h⟩
  · cases h

/-- An operation that stays in its queue. -/
theorem op_old (hk : Good k.sp) (hr : Spine.Reach k.sp s.sp) (hl : Link k.sp s.sp bw rw Z g) (hv : Sched.Valid k s c) (I : Inv k s bw)
    (h : Sched.step k s c = some s') {Z' : List (Flight n × Sig)}
    (hl' : Link k.sp (Spine.step k.sp s.sp (hw k s c)) (BranchWindow.stepSys k.sp.maxBr bw (iB k.sp s.sp (hw k s c)))
      (RenWindow.stepSys k.sp.P k.sp.A n rw (iR k.sp s.sp (hw k s c))) Z' (RobQueue.report g (robIn k.sp s.sp (hw k s c))))
    {q : Iq} {y : Uop n} (hy : y ∈ queued (s.iq q)) (hn : IssueWindow.killed (iqIn k s c q) y = false) :
    QOp k s' (BranchWindow.stepSys k.sp.maxBr bw (iB k.sp s.sp (hw k s c))) q
      (IssueWindow.scrub (iqIn k s c q) (hear c.hw.wakes y)) := by
  have Q := I.ops q y hy
  obtain ⟨v, hvm, v1, v2, v3, v4⟩ := Q.mem
  obtain ⟨f, hfm, f1, f2⟩ := Q.flight
  obtain ⟨m, hm, m1, m2, m3, m4⟩ := Q.op
  have hrob := queued_rob I hy
  have hi := inst_old h hl hk hr hrob
  have hf : flush s.sp (hw k s c) = false := by
    unfold IssueWindow.killed at hn
    rw [Bool.or_eq_false_iff] at hn
    exact hn.1
  have hnc : Rob.complete v = false := by
    cases hc : Rob.complete v with
    | false => rfl
    | true =>
      exfalso
      have hc : v.cplt = v.expect := by unfold Rob.complete at hc; simpa using hc
      rw [hc, I.expect v hvm, v1, ← m1] at v4
      exact (part_bit _ m hm).2 v4
  have hst := stays hk hr hl hv.hw hf hvm hnc hfm (f1.trans v1.symm) (by rw [← killed_eq q f2 hf]; exact hn)
  rw [v1] at hst
  obtain ⟨v', hv', e'⟩ := List.mem_map.1 hst
  have e' : v'.id = y.id := e'
  have hsig : sig v' = sig v := by
    rcases (rob_old hk hl hv').2 with ⟨u, hu, e⟩ | ⟨_, a, ha, e⟩
    · have : u.id = v.id := by rw [v1, ← e', show v'.id = u.id from congrArg Prod.fst e]
      rw [e, id_inj hk hr hu hvm this]
    · exfalso
      have := rob_lt_dis hk hr hrob (List.mem_append_left _ (fired_dis hl ha))
      rw [← e', show v'.id = a.inst.ftq from congrArg Prod.fst e] at this
      omega
  refine ⟨⟨v', ?_, e', ?_, ?_, ?_⟩, ?_, m, ?_, m1, m2, ?_, ?_⟩
  · rw [(step_some h).2.1]; exact hv'
  · exact (congrArg (fun x : Sig => x.2.1) hsig).trans v2
  · exact (congrArg (fun x : Sig => x.2.2.1) hsig).trans v3
  · show v'.cplt &&& partBit (s'.inst y.id).dec q = 0#3
    rw [hi]
    refine cplt_old hk hl hl' hvm hv' hsig v4 fun w hw' hwi => ?_
    have := hv.parts w hw' v hvm hwi.symm q y hy v1.symm
    rwa [v1] at this
  · obtain ⟨_, _, f', hf', g1, g2⟩ := flight_next hl hl' hfm (by rw [f1]; exact hst)
    exact ⟨f', hf', g1.trans f1, by rw [g2, f2]; rfl⟩
  · show m ∈ decompose (s'.inst y.id).dec
    rw [hi]; exact hm
  · intro b
    show srcReg (y.src b) = reads (s'.inst y.id) m b
    rw [hi]; exact m3 b
  · intro b j hj hfe hb
    obtain ⟨hjo, hfo⟩ := feeds_back hk hr hl h hrob hj hfe
    rw [(step_some h).2.2.2.1 j, decide_eq_true hjo, Bool.true_and]
    have hb : ((y.src b).busy && !((y.src b).en && c.hw.wakes.contains (y.src b).preg)) = false := hb
    obtain ⟨r1, r2⟩ := reads_src (m3 b) hfo.2.1
    cases hbu : (y.src b).busy with
    | false => rw [m4 b j hjo hfo hbu]; rfl
    | true =>
      rw [hbu, r1, r2] at hb
      have hb : c.hw.wakes.contains (s.inst j).destPreg = true := by simpa using hb
      rw [hfo.1, hb]; simp

/-- A register being broadcast is not the destination of an instruction being dispatched. -/
theorem wake_new (hl : Link k.sp s.sp bw rw Z g) (hv : Sched.Valid k s c) {a : Dispatch.Alloc n} (ha : a ∈ fired (dis k s c))
    (hd : a.inst.dec.destEn = true) : c.hw.wakes.contains a.inst.destPreg = false := by
  obtain ⟨u, hu, e⟩ := fired_wait hl ha
  cases hc : c.hw.wakes.contains a.inst.destPreg with
  | false => rfl
  | true =>
    exfalso
    rw [List.contains_iff_mem] at hc
    refine hv.wakes _ hc u hu ?_ ?_
    · rw [e] at hd; exact hd
    · rw [e]; rfl

/-- An operation that enters its queue. -/
theorem op_new (hk : Good k.sp) (hr : Spine.Reach k.sp s.sp) (hl : Link k.sp s.sp bw rw Z g) (hv : Sched.Valid k s c) (I : Inv k s bw)
    (h : Sched.step k s c = some s') {Z' : List (Flight n × Sig)}
    (hl' : Link k.sp (Spine.step k.sp s.sp (hw k s c)) (BranchWindow.stepSys k.sp.maxBr bw (iB k.sp s.sp (hw k s c)))
      (RenWindow.stepSys k.sp.P k.sp.A n rw (iR k.sp s.sp (hw k s c))) Z' (RobQueue.report g (robIn k.sp s.sp (hw k s c))))
    {q : Iq} {y : Uop n} (hy : y ∈ (iqIn k s c q).enq) :
    QOp k s' (BranchWindow.stepSys k.sp.maxBr bw (iB k.sp s.sp (hw k s c))) q
      (IssueWindow.scrub (iqIn k s c q) (hear c.hw.wakes y)) := by
  obtain ⟨a, ha, m, hm, m1, rfl⟩ := (mem_enq hl).1 hy
  obtain ⟨hf, hmi⟩ := fired_quiet ha
  have hi := inst_new h hl hk hr ha
  have hsig : sig (toUop a) ∈ (insts k.sp.L (Spine.step k.sp s.sp (hw k s c)).rob).map sig := by
    obtain ⟨_, _, rest, _, _, _, _, _, hs⟩ := hl.split hk (hw k s c)
    rw [hs, hf, if_neg (by simp), hmi, if_neg (by simp)]
    exact List.mem_append_right _ (List.mem_map.2 ⟨a, ha, rfl⟩)
  obtain ⟨v, hvm, hsv⟩ := List.mem_map.1 hsig
  have v1 : v.id = a.inst.ftq := congrArg Prod.fst hsv
  have hrob : a.inst.ftq ∈ robIds k.sp (Spine.step k.sp s.sp (hw k s c)) := by
    rw [← v1]; exact List.mem_map_of_mem hvm
  obtain ⟨u, hu, hua⟩ := fired_wait hl ha
  have hsound : Sound a.inst.dec := by
    rw [hua]; exact (decd_reach Sound sound_decode hk hr).dis u hu
  obtain ⟨pre, post, hpp⟩ := List.append_of_mem ha
  obtain ⟨b1, b2⟩ := Proofs.Dispatch.fired_busy (Proofs.Dispatch.wf_reach hl.dr) (Proofs.Dispatch.noX0_reach hl.dr)
    (disIn k.sp s.sp (hw k s c)) hpp
  refine ⟨⟨v, ?_, v1, ?_, ?_, ?_⟩, ?_, m, ?_, m1, rfl, ?_, ?_⟩
  · rw [(step_some h).2.1]; exact hvm
  · exact congrArg (fun x : Sig => x.2.1) hsv
  · exact congrArg (fun x : Sig => x.2.2.1) hsv
  · rw [cplt_new hk hl' hvm ha hsv]; exact BitVec.zero_and
  · have hfm : disF s.sp.info u ∈ bw.win := by
      rw [hl.win]; exact List.mem_append_left _ (List.mem_append_right _ (List.mem_map_of_mem hu))
    have hseq : (disF s.sp.info u).seq = a.inst.ftq := by rw [hua]; rfl
    obtain ⟨_, _, f', hf', g1, g2⟩ := flight_next hl hl' hfm (by rw [hseq]; exact hrob)
    refine ⟨f', hf', g1.trans hseq, ?_⟩
    rw [g2]
    show u.brMask &&& _ = a.inst.brMask &&& _
    rw [hua]
    show u.brMask &&& _ = (u.brMask &&& ~~~(Idu.combBranch s.sp.idu).clear) &&& ~~~(Idu.combBranch s.sp.idu).clear
    rw [BitVec.and_assoc, BitVec.and_self]
  · show m ∈ decompose (s'.inst a.inst.ftq).dec
    rw [hi]; exact hm
  · intro b
    show _ = reads (s'.inst a.inst.ftq) m b
    rw [hi]
    cases b <;> rfl
  · intro b j hj hfe hb
    obtain ⟨e1, e2, e3⟩ := hfe
    replace e2 : reads (s'.inst a.inst.ftq) m b = some (s'.inst j).destPreg := e2
    replace e3 : if m.src1FromDest = true ∧ b = false then j = a.inst.ftq ∧ (s'.inst a.inst.ftq).dec.amoOp ≠ 1#7
      else j < a.inst.ftq := e3
    rw [hi] at e2 e3
    replace hb : (((toIq k (pkt a m)).src b).busy && !(((toIq k (pkt a m)).src b).en &&
      c.hw.wakes.contains ((toIq k (pkt a m)).src b).preg)) = false := hb
    have hfo := Proofs.Dispatch.forced_iff a.inst.dec m hm
    by_cases hcase : m.src1FromDest = true ∧ b = false
    · exfalso
      rw [if_pos hcase] at e3
      obtain ⟨hc1, rfl⟩ := hcase
      obtain ⟨rfl, hamo⟩ := e3
      rw [hi] at e1
      have h1 : ((toIq k (pkt a m)).src false).busy = true := by
        show m.src1BusyForced.getD a.src1Busy = true
        rw [(hfo.2 hc1).1]; simpa using hamo
      have h2 : ((toIq k (pkt a m)).src false).preg = a.inst.destPreg := by
        show (if m.src1FromDest then a.inst.destPreg else a.inst.src1Preg) = _
        rw [hc1]; rfl
      rw [h1, h2, wake_new hl hv ha e1] at hb
      simp at hb
    · rw [if_neg hcase] at e3
      have key : ((toIq k (pkt a m)).src b).en = true ∧ ((toIq k (pkt a m)).src b).preg = (s'.inst j).destPreg ∧
          ((toIq k (pkt a m)).src b).busy = ((s.sp.dis.busy (s'.inst j).destPreg && !c.hw.wakes.contains (s'.inst j).destPreg) ||
            pre.any fun b => b.inst.dec.destEn && b.inst.destPreg == (s'.inst j).destPreg) := by
        cases b with
        | true =>
          unfold reads at e2
          simp only [if_true] at e2
          split at e2
          · rename_i hen
            have e2 : a.inst.src2Preg = (s'.inst j).destPreg := by simpa using e2
            refine ⟨hen, e2, ?_⟩
            rw [← e2]
            show a.src2Busy = _
            rw [b2, (hsound m hm).2 hen, Bool.true_and]; rfl
          · cases e2
        | false =>
          have hnd : m.src1FromDest = false := by cases hx : m.src1FromDest <;> simp [hx] at hcase ⊢
          unfold reads at e2
          rw [hnd] at e2
          simp only [Bool.false_eq_true, if_false] at e2
          split at e2
          · rename_i hen
            have e2 : a.inst.src1Preg = (s'.inst j).destPreg := by simpa using e2
            refine ⟨hen, ?_, ?_⟩
            · show (if m.src1FromDest then a.inst.destPreg else a.inst.src1Preg) = _
              rw [hnd]; exact e2
            · rw [← e2]
              show m.src1BusyForced.getD a.src1Busy = _
              rw [hfo.1.2 hnd]
              show a.src1Busy = _
              rw [b1, (hsound m hm).1 hen, Bool.true_and]; rfl
          · cases e2
      obtain ⟨k1, k2, k3⟩ := key
      rw [k1, k2, k3, Bool.true_and] at hb
      rw [(step_some h).2.1] at hj
      rcases (ids_from hk hl hj).2 with hj | ⟨_, a', ha', rfl⟩
      · rw [(step_some h).2.2.2.1 j, decide_eq_true hj, Bool.true_and]
        have hio := inst_old h hl hk hr hj
        rw [hio] at hb e1
        rw [e1]
        cases hw' : c.hw.wakes.contains (s.inst j).destPreg with
        | true => simp
        | false =>
          cases han : s.ann j with
          | true => rfl
          | false =>
            rw [I.table j hj e1 han, hw'] at hb
            simp at hb
      · exfalso
        rw [inst_new h hl hk hr ha'] at hb e1
        have hin : a' ∈ pre := by
          have hs := fired_sorted (c := hw k s c) hk hr hl
          have ha2 : a' ∈ pre ++ a :: post := by rw [← hpp]; exact ha'
          rw [show disOut k.sp s.sp (hw k s c) = dis k s c from rfl,
            show fired (dis k s c) = pre ++ a :: post from hpp, List.map_append, List.map_cons, List.pairwise_append,
            List.pairwise_cons] at hs
          rcases List.mem_append.1 ha2 with h2 | h2
          · exact h2
          · rcases List.mem_cons.1 h2 with rfl | h2
            · omega
            · have := hs.2.1.1 _ (List.mem_map.2 ⟨a', h2, rfl⟩)
              omega
        rw [wake_new hl hv ha' e1, List.any_eq_true.2 ⟨a', hin, by simp [e1]⟩] at hb
        simp at hb

/-! ### Exactly once -/

theorem count_map_filter {α : Type} (f : α → Nat) (u : Nat) (p : α → Bool) : ∀ l : List α,
    (∀ x ∈ l, f x = u → p x = true) → ((l.filter p).map f).count u = (l.map f).count u
  | [], _ => rfl
  | x :: l, h => by
    have ih := count_map_filter f u p l (fun y hy => h y (List.mem_cons_of_mem _ hy))
    by_cases hx : f x = u
    · rw [List.filter_cons_of_pos (h x List.mem_cons_self hx)]
      simp only [List.map_cons, List.count_cons, ih]
    · cases hp : p x with
      | true => rw [List.filter_cons_of_pos hp]; simp only [List.map_cons, List.count_cons, ih]
      | false =>
        rw [List.filter_cons_of_neg (by simp [hp])]
        simp only [List.map_cons, List.count_cons, ih]
        have : (f x == u) = false := by simpa using hx
        simp [this]

theorem find_one (q : Iq) : ∀ l : List MicroOp, (l.map (·.iq)).Nodup →
    (l.filter (fun m => decide (m.iq = q))).length = if (l.find? (fun m => m.iq == q)).isSome then 1 else 0
  | [], _ => rfl
  | m :: l, h => by
    rw [List.map_cons, List.nodup_cons] at h
    by_cases hm : m.iq = q
    · have : l.filter (fun m => decide (m.iq = q)) = [] := by
        rw [List.filter_eq_nil_iff]
        intro x hx hq
        refine h.1 (List.mem_map.2 ⟨x, hx, ?_⟩)
        rw [hm]; simpa using hq
      rw [List.filter_cons_of_pos (by simpa using hm), this, List.find?_cons_of_pos (by simpa using hm)]; rfl
    · rw [List.filter_cons_of_neg (by simpa using hm), List.find?_cons_of_neg (by simpa using hm)]
      exact find_one q l h.2

/-- The requests of one instruction among those of a group. -/
theorem enq_count (q : Iq) (u : Nat) : ∀ l : List (Dispatch.Alloc n), (l.map (·.inst.ftq)).Pairwise (· < ·) →
    (((l.flatMap (fun a => (Dispatch.packets a).filter (fun p => p.mop.iq = q))).map (toIq k)).map (·.id)).count u =
      match l.find? (fun a => a.inst.ftq == u) with
      | none => 0
      | some a => if ((decompose a.inst.dec).find? (fun m => m.iq == q)).isSome then 1 else 0
  | [], _ => rfl
  | a :: l, h => by
    rw [List.map_cons, List.pairwise_cons] at h
    have ih := enq_count q u l h.2
    rw [List.flatMap_cons, List.map_append, List.map_append, List.count_append, ih]
    have hone : ((((Dispatch.packets a).filter (fun p => p.mop.iq = q)).map (toIq k)).map (·.id)) =
        List.replicate ((decompose a.inst.dec).filter (fun m => decide (m.iq = q))).length a.inst.ftq := by
      rw [List.eq_replicate_iff]
      refine ⟨?_, ?_⟩
      · rw [List.length_map, List.length_map]
        unfold Dispatch.packets
        rw [List.filter_map, List.length_map]; rfl
      · intro x hx
        obtain ⟨y, hy, rfl⟩ := List.mem_map.1 hx
        obtain ⟨p, hp, rfl⟩ := List.mem_map.1 hy
        obtain ⟨m, _, rfl⟩ := mem_packets.1 (List.mem_filter.1 hp).1
        rfl
    rw [hone, find_one q _ (Proofs.Dispatch.decompose_nodup _)]
    by_cases he : a.inst.ftq = u
    · have hno : l.find? (fun a => a.inst.ftq == u) = none := by
        rw [List.find?_eq_none]
        intro b hb hbe
        have := h.1 _ (List.mem_map.2 ⟨b, hb, rfl⟩)
        have hbe : b.inst.ftq = u := by simpa using hbe
        omega
      rw [List.find?_cons_of_pos (by simpa using he), hno, ← he, List.count_replicate_self]; rfl
    · rw [List.find?_cons_of_neg (by simpa using he), List.count_replicate]
      have : (a.inst.ftq == u) = false := by simpa using he
      rw [this]; simp

theorem once_step (hk : Good k.sp) (hr : Spine.Reach k.sp s.sp) (hl : Link k.sp s.sp bw rw Z g) (I : Inv k s bw)
    (h : Sched.step k s c = some s') {Z' : List (Flight n × Sig)}
    (hl' : Link k.sp (Spine.step k.sp s.sp (hw k s c)) (BranchWindow.stepSys k.sp.maxBr bw (iB k.sp s.sp (hw k s c)))
      (RenWindow.stepSys k.sp.P k.sp.A n rw (iR k.sp s.sp (hw k s c))) Z' (RobQueue.report g (robIn k.sp s.sp (hw k s c)))) :
    ∀ u ∈ robIds k.sp s'.sp, ∀ q, ((queued (s'.iq q)).map (·.id)).count u + (s'.out q).count u =
      if (part s' u q).isSome then 1 else 0 := by
  intro u hu q
  rw [(step_some h).2.1] at hu
  obtain ⟨rest, h1, h2⟩ := queue_step hk hr hl I h q
  have hrest : ∀ x ∈ rest, x ∈ queued (s.iq q) := fun x hx => h1.mem_iff.2 (List.mem_append_right _ hx)
  have hkill : ∀ x ∈ rest ++ (iqIn k s c q).enq, x.id = u → IssueWindow.killed (iqIn k s c q) x = false := by
    intro x hx he
    rcases List.mem_append.1 hx with hx | hx
    · obtain ⟨f, hf, f1, f2⟩ := (I.ops q x (hrest x hx)).flight
      obtain ⟨hfl, hnk, _⟩ := flight_next hl hl' hf (by rw [f1, he]; exact hu)
      rw [killed_eq q f2 hfl]; exact hnk
    · obtain ⟨a, ha, _⟩ := (mem_enq hl).1 hx
      exact new_not_killed q ha x
  have hc : ((queued (s'.iq q)).map (·.id)).count u = (rest.map (·.id)).count u + ((iqIn k s c q).enq.map (·.id)).count u := by
    rw [(h2.map _).count_eq, List.map_map]
    rw [show ((fun x : Uop n => x.id) ∘ IssueWindow.scrub (iqIn k s c q)) = fun x => x.id from rfl]
    rw [count_map_filter]
    · rw [List.map_map, show ((fun x : Uop n => x.id) ∘ hear c.hw.wakes) = fun x => x.id from rfl, List.map_append, List.count_append]
    · intro x hx he
      obtain ⟨y, hy, rfl⟩ := List.mem_map.1 hx
      have := hkill y hy he
      rw [Bool.not_eq_true']; exact this
  have ho : ((queued (s.iq q)).map (·.id)).count u = ((issued k s c q).map (·.id)).count u + (rest.map (·.id)).count u := by
    rw [(h1.map _).count_eq, List.map_append, List.count_append]
  have he : ((iqIn k s c q).enq.map (·.id)).count u = match (fired (dis k s c)).find? (fun a => a.inst.ftq == u) with
      | none => 0
      | some a => if ((decompose a.inst.dec).find? (fun m => m.iq == q)).isSome then 1 else 0 := by
    show (((Dispatch.sent (dis k s c) q).map (toIq k)).map (·.id)).count u = _
    rw [sent_all hl]
    exact enq_count q u _ (fired_sorted (c := hw k s c) hk hr hl)
  rw [hc, (step_some h).2.2.2.2 q, List.count_append, he]
  rcases (ids_from hk hl hu).2 with hu | ⟨_, a, ha, rfl⟩
  · have hno : (fired (dis k s c)).find? (fun a => a.inst.ftq == u) = none := by
      rw [List.find?_eq_none]
      intro a ha hae
      have hae : a.inst.ftq = u := by simpa using hae
      have := rob_lt_dis hk hr hu (List.mem_append_left _ (fired_dis hl ha))
      omega
    have hi := I.once u hu q
    rw [hno]
    unfold part at hi ⊢
    rw [inst_old h hl hk hr hu, ← hi, ho]
    simp only
    omega
  · have hfi : (fired (dis k s c)).find? (fun b => b.inst.ftq == a.inst.ftq) = some a := by
      have := inst_new h hl hk hr ha
      rw [(step_some h).2.2.1] at this
      cases hfi : (fired (dis k s c)).find? (fun b => b.inst.ftq == a.inst.ftq) with
      | none => exact absurd (List.find?_eq_none.1 hfi a ha) (by simp)
      | some b =>
        have hb := List.mem_of_find?_eq_some hfi
        have he : b.inst.ftq = a.inst.ftq := by simpa using List.find?_some hfi
        have hs := fired_sorted (c := hw k s c) hk hr hl
        rw [List.pairwise_map] at hs
        rw [pair_inj (f := fun a : Dispatch.Alloc n => a.inst.ftq) (hs.imp fun hlt => Nat.ne_of_lt hlt) hb ha he]
    have hd := List.mem_append_left (latIds s.sp) (fired_dis hl ha)
    have z1 : (rest.map (·.id)).count a.inst.ftq = 0 := by
      rw [List.count_eq_zero]
      intro hx
      obtain ⟨x, hx, e⟩ := List.mem_map.1 hx
      have := rob_lt_dis hk hr (queued_rob I (hrest x hx)) hd
      omega
    have z2 : ((issued k s c q).map (·.id)).count a.inst.ftq = 0 := by
      rw [List.count_eq_zero]
      intro hx
      obtain ⟨x, hx, e⟩ := List.mem_map.1 hx
      have := rob_lt_dis hk hr (queued_rob I (issued_mem I hx).1) hd
      omega
    have z3 : (s.out q).count a.inst.ftq = 0 := by
      rw [List.count_eq_zero]
      intro hx
      have := (I.past q _ hx).2 _ hd
      omega
    rw [z1, z2, z3, hfi]
    unfold part
    rw [inst_new h hl hk hr ha]
    simp only
    omega

/-! ### Reachable states -/

theorem inv_init (k : Sched.Cfg) (hk : Good k.sp) (bw : BranchWindow.Sys n) : Inv k (Sched.init n k) bw := by
  have hz : insts k.sp.L (Sched.init n k).sp.rob = [] := by
    have := Proofs.Rob.rinv_insts (Proofs.Rob.rinv_init (B := k.sp.dis.banks) hk.lines)
    exact this
  have hq : ∀ q, queued ((Sched.init n k).iq q) = [] := by
    intro q
    show (List.replicate (k.size q) none).filterMap id = []
    rw [List.filterMap_eq_nil_iff]; intro o ho; rw [(List.mem_replicate.1 ho).2]; rfl
  refine ⟨fun q => .init, ?_, ?_, ?_, ?_, ?_⟩
  · intro v hv; rw [hz] at hv; cases hv
  · intro j hj; unfold robIds at hj; rw [hz] at hj; cases hj
  · intro j hj; unfold robIds at hj; rw [hz] at hj; cases hj
  · intro q i hi; cases hi
  · intro q x hx; rw [hq] at hx; cases hx

theorem inv_step (hk : Good k.sp) (hr : Spine.Reach k.sp s.sp) (hl : Link k.sp s.sp bw rw Z g) (hv : Sched.Valid k s c) (I : Inv k s bw)
    (h : Sched.step k s c = some s') : ∃ bw' rw' Z' g', Link k.sp s'.sp bw' rw' Z' g' ∧ Inv k s' bw' := by
  obtain ⟨Z', hl', _⟩ := link_step_valid hk hl hv.hw
  refine ⟨_, _, Z', _, by rw [(step_some h).2.1]; exact hl', ?_⟩
  refine ⟨fun q => .step _ (I.iqr q) (iq_valid hk hr hl c q) ((step_some h).1 q), expect_step hk hr hl I h, table_step hk hr hl I h,
    once_step hk hr hl I h hl', past_step hk hr hl hv I h, fun q x hx => ?_⟩
  obtain ⟨y, hy, hn, rfl⟩ := queue_from hk hr hl I h hx
  rcases hy with hy | hy
  · exact op_old hk hr hl hv I h hl' hy hn
  · exact op_new hk hr hl hv I h hl' hy

theorem inv_reach (hk : Good k.sp) (h : Sched.Reach k s) :
    Spine.Reach k.sp s.sp ∧ ∃ bw rw Z g, Link k.sp s.sp bw rw Z g ∧ Inv k s bw := by
  induction h with
  | init => exact ⟨.init, _, _, _, _, link_init hk, inv_init k hk _⟩
  | step c _ hv hs ih =>
    obtain ⟨hr, bw, rw, Z, g, hl, I⟩ := ih
    refine ⟨?_, inv_step hk hr hl hv I hs⟩
    rw [(step_some hs).2.1]; exact .step _ hr hv.hw

end

end Verif.SchedProofs

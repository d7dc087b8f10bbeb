import Verif.Spec.Ooo
import Verif.Proofs.Sched
import Verif.Proofs.WholeRun
import Verif.Props.Rob
/-
The queues and the running program: the invariant that links an instruction's operands in the two views.
-/
namespace Verif.OooProofs
open Verif.Spine Verif.SpineProofs Verif.Ooo
open Verif.Core (Sem W)
open Verif.Decode (DecInst MicroOp Iq decompose decodeEntry)
open Verif.BranchWindow (Flight)
open Verif.RobQueue (insts sig)
open Verif.DispatchGroup (waiting fired)
open Verif.Sched (part reads feeds)
open Verif.SchedProofs (pkt)

variable {n : Nat} {M : Type} {prog : W → Sem M}

/-! ### The decoder -/

/-- Every register the instruction reads is read by one of its operations as its own operand. -/
def Full (d : DecInst) : Prop :=
  (d.src1En = true → ∃ m ∈ decompose d, m.inst.src1En = true ∧ m.src1FromDest = false) ∧
  (d.src2En = true → ∃ m ∈ decompose d, m.inst.src2En = true ∧ (m.src1FromDest = true → d.type = .amo)) ∧
  (∀ m ∈ decompose d, m.src1FromDest = true → d.type = .amo) ∧
  (d.destEn = true → d.type ≠ .amo → d.type ≠ .jal → d.type ≠ .jalr →
    (d.src1En = true → ∃ m ∈ decompose d, m.inst.src1En = true ∧ m.inst.destEn = true) ∧
    (d.src2En = true → ∃ m ∈ decompose d, m.inst.src2En = true ∧ m.inst.destEn = true))

theorem full_of {d : DecInst} (h : d.type = .amo → d.amoOp = 2#7 → d.src2En = false) : Full d := by
  unfold Full decompose
  cases ht : d.type <;> simp only [ht] at h ⊢ <;> first
    | (refine ⟨fun hs => ?_, fun hs => ?_, fun m hm => ?_, fun hd h1 h2 h3 => ⟨fun hs => ?_, fun hs => ?_⟩⟩ <;> simp_all <;> done)
    | (refine ⟨fun hs => ?_, fun hs => ?_, fun m hm => ?_, fun hd h1 h2 h3 => ⟨fun hs => ?_, fun hs => ?_⟩⟩ <;> simp_all <;> grind)
    | skip
  by_cases h2 : d.amoOp = 2#7
  · have := h trivial h2
    rw [if_pos h2]
    refine ⟨fun hs => ⟨_, List.mem_singleton.2 rfl, hs, rfl⟩, fun hs => ?_, fun _ _ _ => trivial, fun _ h => absurd rfl h⟩
    rw [this] at hs; cases hs
  · rw [if_neg h2]
    by_cases h3 : d.amoOp = 3#7
    · rw [if_pos h3]
      exact ⟨fun hs => ⟨_, List.mem_cons_self, hs, rfl⟩, fun hs => ⟨_, List.mem_cons_of_mem _ List.mem_cons_self, hs, fun _ => trivial⟩,
        fun _ _ _ => trivial, fun _ h => absurd rfl h⟩
    · rw [if_neg h3]
      exact ⟨fun hs => ⟨_, List.mem_cons_self, hs, rfl⟩,
        fun hs => ⟨_, List.mem_cons_of_mem _ (List.mem_cons_of_mem _ List.mem_cons_self), hs, fun _ => trivial⟩, fun _ _ _ => trivial, fun _ h => absurd rfl h⟩

theorem full_decode (w : BitVec 32) (pf : Bool) : Full (decodeEntry w pf) := by
  refine full_of ?_
  cases pf with
  | true => simp [decodeEntry]
  | false =>
    have h : decodeEntry w false = Decode.decodeFinish (Decode.decodeOpcode w (Decode.decodeFields w)) := rfl
    obtain ⟨h1, _, h3⟩ := SchedProofs.finish_type (Decode.decodeOpcode w (Decode.decodeFields w))
    have h4 : (Decode.decodeFinish (Decode.decodeOpcode w (Decode.decodeFields w))).amoOp =
        (Decode.decodeOpcode w (Decode.decodeFields w)).amoOp := by
      unfold Decode.decodeFinish
      simp only
      split <;> split <;> rfl
    rw [h, h1, h3, h4]
    unfold Decode.decodeOpcode
    split
    all_goals first
      | (simp; done)
      | (intro _ ho
         have ho : (Decode.decodeFields w).amoOp = 2#7 := ho
         show (!((Decode.decodeFields w).amoOp == 2#7)) = false
         rw [ho]; rfl)
      | (intro ht; exfalso; unfold Decode.decodeSystem at ht; simp only at ht; revert ht; repeat' split
         all_goals (intro ht; cases ht))
      | (intro ht; simp only at ht; revert ht; repeat' split
         all_goals (intro ht; cases ht))

theorem part_mem {s : Sched.State n} {u : Nat} {m : MicroOp} (hm : m ∈ decompose (s.inst u).dec) : part s u m.iq = some m := by
  have hnd := Proofs.Dispatch.decompose_nodup (s.inst u).dec
  unfold part
  generalize decompose (s.inst u).dec = l at hm hnd
  induction l with
  | nil => cases hm
  | cons a l ih =>
    rw [List.map_cons, List.nodup_cons] at hnd
    rcases List.mem_cons.1 hm with rfl | hm
    · rw [List.find?_cons_of_pos (by simp)]
    · rw [List.find?_cons_of_neg, ih hm hnd.2]
      intro he
      exact hnd.1 (List.mem_map.2 ⟨m, hm, by symm; simpa using he⟩)

/-! ### What is known of an instruction -/

/-- The instruction as dispatched is the one the program's view has under its number. -/
structure Desc (prog : W → Sem M) (w : Whole.State n M) (v : Dispatch.Inst n) : Prop where
  uses : Uses v.dec (prog (w.pay v.ftq).1)
  src : w.src v.ftq = (v.src1Preg, v.src2Preg)
  preg : (w.sp.info v.ftq).preg = v.destPreg
  destEn : (w.sp.info v.ftq).destEn = v.dec.destEn

structure Inv (prog : W → Sem M) (k : Sched.Cfg) (s : State n M) : Prop where
  lat : ∀ d, some d ∈ s.w.sp.lat → Uses d.dec (prog (s.w.pay d.uid).1)
  dis : ∀ v ∈ waiting s.w.sp.dis, Desc prog s.w v
  rob : ∀ u ∈ robIds k.sp s.w.sp, Desc prog s.w (s.inst u) ∧ (s.inst u).ftq = u ∧ Full (s.inst u).dec
  alone : ∀ u ∈ robIds k.sp s.w.sp, (s.inst u).dec.type = .amo → ∀ v ∈ robIds k.sp s.w.sp, u ≤ v
  ran : ∀ q, ∀ u ∈ robIds k.sp s.w.sp, u ∈ s.out q → ∀ m, part (sched s) u q = some m →
    ∀ b, ∀ j ∈ robIds k.sp s.w.sp, j < u → feeds (sched s) j u m b → s.w.done j = true ∨ s.w.wrote j = true

section
variable {k : Spine.Cfg} {s : Whole.State n M} {c : Whole.Input n M}
variable {bw : BranchWindow.Sys n} {rw : RenWindow.Sys} {Z : List (Flight n × Sig)} {g : Nat → BitVec 3}

theorem dis_full (hl : Link k s.sp bw rw Z g) (hf : flush s.sp c.hw = false) (hm : s.sp.idu.latch.mispred = false)
    {u : Dispatch.Inst n} (hu : u ∈ (fired (disOut k s.sp c.hw)).map (·.inst) ++ waiting (Spine.step k s.sp c.hw).dis) :
    (∃ v ∈ waiting s.sp.dis, u.ftq = v.ftq ∧ u.dec = v.dec ∧ u.destPreg = v.destPreg ∧ u.src1Preg = v.src1Preg ∧
      u.src2Preg = v.src2Preg) ∨
    ∃ x ∈ taken (renSlots k s.sp) s.sp.lat, (disOut k s.sp c.hw).ready = true ∧ u.ftq = x.1.uid ∧ u.dec = x.1.dec ∧
      u.destPreg = x.2.dest ∧ u.src1Preg = x.2.p1 ∧ u.src2Preg = x.2.p2 := by
  obtain ⟨h1, h2⟩ := hl.slots
  obtain ⟨_, _, e3, _⟩ := group_facts _ _ h1 h2
  have hwait := Proofs.Dispatch.step_waiting k.dis (Proofs.Dispatch.wf_reach hl.dr) (disIn k s.sp c.hw) hf hm
  change (fired (disOut k s.sp c.hw)).map (·.inst) ++ waiting (Spine.step k s.sp c.hw).dis =
    (waiting s.sp.dis).map _ ++ (DispatchGroup.received (disOut k s.sp c.hw) (disIn k s.sp c.hw)).map _ at hwait
  rw [hwait] at hu
  rcases List.mem_append.1 hu with hu | hu
  · obtain ⟨v, hv, rfl⟩ := List.mem_map.1 hu
    exact .inl ⟨v, hv, rfl, rfl, rfl, rfl, rfl⟩
  · obtain ⟨v, hv, rfl⟩ := List.mem_map.1 hu
    have hv : v ∈ (if (disOut k s.sp c.hw).ready then (renOut (renSlots k s.sp) s.sp.lat).filterMap id else []) := hv
    split at hv
    · rename_i hR
      rw [e3] at hv
      obtain ⟨x, hx, rfl⟩ := List.mem_map.1 hv
      exact .inr ⟨x, hx, hR, rfl, rfl, rfl, rfl, rfl⟩
    · cases hv

theorem src_keep (hk : Good k) (hi : WholeProofs.Inv prog k s) (hl : Link k s.sp bw rw Z g) {u : Nat} (hu : u ∈ Whole.ids k s) :
    (Whole.cycle prog k s c).src u = s.src u :=
  WholeProofs.src_old (fun d hd => by have := WholeProofs.ids_lat hk hi.reach hu hd; omega) hl

/-- Nothing known of an instruction in flight changes in a cycle. -/
theorem desc_old (hk : Good k) (hi : WholeProofs.Inv prog k s) (hl : Link k s.sp bw rw Z g) {u v : Dispatch.Inst n}
    (hd : Desc prog s v) (hu : v.ftq ∈ Whole.ids k s)
    (he : u.ftq = v.ftq ∧ u.dec = v.dec ∧ u.destPreg = v.destPreg ∧ u.src1Preg = v.src1Preg ∧ u.src2Preg = v.src2Preg) :
    Desc prog (Whole.cycle prog k s c) u := by
  obtain ⟨e1, e2, e3, e4, e5⟩ := he
  have hin : (Whole.cycle prog k s c).sp.info v.ftq = s.sp.info v.ftq := WholeProofs.info_ids hk hi hl hu
  refine ⟨?_, ?_, ?_, ?_⟩
  · rw [e1, e2, WholeProofs.pc_old (WholeProofs.ids_lt hk hi.reach hu)]; exact hd.uses
  · rw [e1, e4, e5, src_keep hk hi hl hu]; exact hd.src
  · rw [e1, e3, hin]; exact hd.preg
  · rw [e1, e2, hin]; exact hd.destEn

theorem desc_dis (hk : Good k) (hi : WholeProofs.Inv prog k s) (hl : Link k s.sp bw rw Z g)
    (hlat : ∀ d, some d ∈ s.sp.lat → Uses d.dec (prog (s.pay d.uid).1)) (hdis : ∀ v ∈ waiting s.sp.dis, Desc prog s v)
    (hf : flush s.sp c.hw = false) (hm : s.sp.idu.latch.mispred = false)
    {u : Dispatch.Inst n} (hu : u ∈ (fired (disOut k s.sp c.hw)).map (·.inst) ++ waiting (Spine.step k s.sp c.hw).dis) :
    Desc prog (Whole.cycle prog k s c) u := by
  rcases dis_full hl hf hm hu with ⟨v, hv, he⟩ | ⟨x, hx, hR, e1, e2, e3, e4, e5⟩
  · exact desc_old hk hi hl (hdis v hv) (List.mem_append_right _ (List.mem_map_of_mem hv)) he
  · have hmem := WholeProofs.taken_mem hl hx
    have hin : (Whole.cycle prog k s c).sp.info x.1.uid = entOf x := info_new hl hR hx
    refine ⟨?_, ?_, ?_, ?_⟩
    · rw [e1, e2, WholeProofs.pc_old (WholeProofs.lat_lt hk hi.reach hmem)]; exact hlat _ hmem
    · rw [e1, e4, e5, WholeProofs.src_new hl hR hx]
    · rw [e1, e3, hin]; rfl
    · rw [e1, e2, hin]; rfl

theorem fetched_uses (hw : c.slots.length = c.hw.ib.length)
    (hv : ∀ (i : Nat) w pf (a : W × W), c.hw.ib[i]? = some (some (w, pf)) → c.slots[i]? = some a → Uses (decodeEntry w pf) (prog a.1))
    {d : DInst n} (hd : some d ∈ Spine.number s.sp.next (decoded c.hw) (decSlots k s.sp c.hw)) :
    Uses d.dec (prog (Whole.pay1 k s c d.uid).1) := by
  obtain ⟨i, sl, x, a, h1, h2, h3, h4, h5, h6, h7⟩ := WholeProofs.number_at (0#32, 0#32) _ _ c.slots s.sp.next
    (by rw [hw, decoded, List.length_map]) d hd
  obtain ⟨b, hb⟩ := WholeProofs.decodeLoop_valid _ _ _ _ _ h1 h2
  rw [List.getElem?_map, h3] at hb
  cases x with
  | none => simp at hb
  | some y =>
    have h3' := h3
    rw [decoded, List.getElem?_map] at h3'
    obtain ⟨o, ho, he⟩ := Option.map_eq_some_iff.1 h3'
    cases o with
    | none => cases he
    | some w =>
      have := hv i w.1 w.2 a ho h5
      have hy : decodeEntry w.1 w.2 = y := by simpa using he
      rw [hy] at this
      rw [h4]
      unfold Whole.pay1
      rw [if_neg (by omega)]
      have e : (Whole.fresh k s c).getD (d.uid - s.sp.next) (0#32, 0#32) = a := h7
      rw [e]; exact this
end

section
variable {k : Sched.Cfg} {s s' : State n M} {c : Input n M}
variable {bw : BranchWindow.Sys n} {rw : RenWindow.Sys} {Z : List (Flight n × Sig)} {g : Nat → BitVec 3}

theorem cycle_some (h : cycle prog k s c = some s') : s'.w = Whole.cycle prog k.sp s.w (input k s c) ∧
    Sched.step k (sched s) (cyc c) = some (sched s') := by
  obtain ⟨t, ht, rfl⟩ := Option.map_eq_some_iff.1 h
  refine ⟨rfl, ?_⟩
  rw [ht]
  have e := (SchedProofs.step_some ht).2.1
  show some t = some ⟨Spine.step k.sp s.w.sp (Sched.hw k (sched s) (cyc c)), t.iq, t.inst, t.ann, t.out⟩
  rw [show (Spine.step k.sp s.w.sp (Sched.hw k (sched s) (cyc c))) = t.sp from e.symm]

theorem robempty (hk : Good k.sp) (hl : Link k.sp s.w.sp bw rw Z g) (h : Rob.emptyOut s.w.sp.rob = true) : robIds k.sp s.w.sp = [] := by
  have := (Props.C18_empty hk.lines hl.qr).1 h
  unfold robIds
  rw [this]; rfl

theorem inv_cycle (hk : Good k.sp) (hi : WholeProofs.Inv prog k.sp s.w) (hl : Link k.sp s.w.sp bw rw Z g)
    (I : SchedProofs.Inv k (sched s) bw) (J : Inv prog k s) (hv : Valid prog k s c) (h : cycle prog k s c = some s') :
    Inv prog k s' := by
  obtain ⟨hw, hs⟩ := cycle_some h
  have hsp : s'.w.sp = Spine.step k.sp s.w.sp (Sched.hw k (sched s) (cyc c)) := by rw [hw]; rfl
  have hr : Spine.Reach k.sp s.w.sp := hi.reach
  have hfull := SchedProofs.decd_reach Full full_decode hk hr
  have hids : ∀ u ∈ robIds k.sp s'.w.sp, flush s.w.sp (Sched.hw k (sched s) (cyc c)) = false ∧ (u ∈ robIds k.sp s.w.sp ∨
      s.w.sp.idu.latch.mispred = false ∧ ∃ a ∈ fired (Sched.dis k (sched s) (cyc c)), u = a.inst.ftq) := by
    intro u hu
    rw [hsp] at hu
    exact SchedProofs.ids_from (s := sched s) (c := cyc c) hk hl hu
  have hold : ∀ u ∈ robIds k.sp s.w.sp, s'.inst u = s.inst u := fun u hu => SchedProofs.inst_old hs hl hk hr hu
  have hnew : ∀ a ∈ fired (Sched.dis k (sched s) (cyc c)), s'.inst a.inst.ftq = a.inst :=
    fun a ha => SchedProofs.inst_new hs hl hk hr ha
  have hlt : ∀ u ∈ robIds k.sp s.w.sp, ∀ a ∈ fired (Sched.dis k (sched s) (cyc c)), u < a.inst.ftq := fun u hu a ha =>
    SchedProofs.rob_lt_dis hk hr hu (List.mem_append_left _ (SchedProofs.fired_dis hl ha))
  refine ⟨?_, ?_, ?_, ?_, ?_⟩
  · intro d hd
    rw [hsp] at hd
    obtain ⟨hf, hm, d0, rfl, h0⟩ := WholeProofs.lat_from hv.stages hd
    rw [hw]
    rcases h0 with h0 | h0
    · show Uses d0.dec (prog ((Whole.cycle prog k.sp s.w (input k s c)).pay d0.uid).1)
      rw [WholeProofs.pc_old (WholeProofs.lat_lt hk hr h0)]; exact J.lat d0 h0
    · have := fetched_uses (k := k.sp) (s := s.w) (c := input k s c) hv.stages.width hv.uses h0
      show Uses d0.dec (prog (if Whole.culprit k.sp s.w = some d0.uid then _ else Whole.pay1 k.sp s.w (input k s c) d0.uid : W × W).1)
      rw [WholeProofs.culprit_none hm, if_neg (by simp)]; exact this
  · intro v hvm
    rw [hsp] at hvm
    rw [hw]
    cases hfm : (flush s.w.sp (input k s c).hw || s.w.sp.idu.latch.mispred) with
    | true =>
      have hvm : v ∈ waiting (Spine.step k.sp s.w.sp (input k s c).hw).dis := hvm
      rw [(emptied (k := k.sp) (c := (input k s c).hw) (s := s.w.sp) (by simpa using hfm)).1] at hvm; cases hvm
    | false =>
      obtain ⟨hf, hm⟩ := Bool.or_eq_false_iff.1 hfm
      exact desc_dis hk hi hl J.lat J.dis hf hm (List.mem_append_right _ hvm)
  · intro u hu
    obtain ⟨hf, hu | ⟨hm, a, ha, rfl⟩⟩ := hids u hu
    · obtain ⟨h1, h2, h3⟩ := J.rob u hu
      rw [hold u hu, hw]
      refine ⟨desc_old hk hi hl h1 ?_ ⟨rfl, rfl, rfl, rfl, rfl⟩, h2, h3⟩
      rw [h2]; exact List.mem_append_left _ hu
    · rw [hnew a ha, hw]
      refine ⟨desc_dis (c := input k s c) hk hi hl J.lat J.dis hf hm (List.mem_append_left _ (List.mem_map.2 ⟨a, ha, rfl⟩)), rfl, ?_⟩
      rcases dis_full (c := input k s c) hl hf hm (List.mem_append_left _ (List.mem_map.2 ⟨a, ha, rfl⟩)) with
        ⟨v, hvm, _, e, _⟩ | ⟨x, hx, _, _, e, _⟩
      · rw [e]; exact hfull.dis v hvm
      · rw [e]; exact hfull.lat x.1 (List.mem_filterMap.2 ⟨_, WholeProofs.taken_mem hl hx, rfl⟩)
  · intro u hu ht v hvm
    obtain ⟨hf, hu⟩ := hids u hu
    obtain ⟨_, hvm⟩ := hids v hvm
    rcases hu with hu | ⟨_, a, ha, rfl⟩
    · rw [hold u hu] at ht
      rcases hvm with hvm | ⟨_, a, ha, rfl⟩
      · exact J.alone u hu ht v hvm
      · exact Nat.le_of_lt (hlt u hu a ha)
    · rw [hnew a ha] at ht
      obtain ⟨pre, post, e⟩ := List.append_of_mem ha
      obtain ⟨h1, h2⟩ := Props.C24_serial hl.dr _ e
      obtain ⟨hemp, rfl⟩ := h1 (by simp [ht])
      have hpost := h2 (by simp [ht])
      subst hpost
      rcases hvm with hvm | ⟨_, b, hb, rfl⟩
      · rw [robempty hk hl hemp] at hvm; cases hvm
      · rw [show fired (Sched.dis k (sched s) (cyc c)) = [a] from e] at hb
        rw [List.mem_singleton.1 hb]; exact Nat.le_refl _
  · intro q u hu ho m hm b j hj hju hfd
    have hdone : s'.w.done = s.w.done := by rw [hw]; rfl
    have hwrote : s'.w.wrote = s.w.wrote := by rw [hw]; rfl
    rw [hdone, hwrote]
    have hold' : u ∈ robIds k.sp s.w.sp := by
      rcases (hids u hu).2 with h | ⟨_, a, ha, e⟩
      · exact h
      · exfalso
        have ho : u ∈ (sched s').out q := ho
        rw [(SchedProofs.step_some hs).2.2.2.2 q] at ho
        rcases List.mem_append.1 ho with ho | ho
        · have := (I.past q u ho).2 u (List.mem_append_left _ (by rw [e]; exact SchedProofs.fired_dis hl ha))
          omega
        · obtain ⟨x, hx, e2⟩ := List.mem_map.1 ho
          have h1 := SchedProofs.queued_rob I (SchedProofs.issued_mem I hx).1
          have := hlt x.id h1 a ha
          omega
    have hjs : j ∈ robIds k.sp (sched s').sp := hj
    obtain ⟨hj', hfd'⟩ := SchedProofs.feeds_back hk hr hl hs hold' hjs hfd
    have hm' : part (sched s) u q = some m := by
      rw [← hm]
      show (decompose (s.inst u).dec).find? _ = (decompose (s'.inst u).dec).find? _
      rw [hold u hold']
    have ho : u ∈ (sched s').out q := ho
    rw [(SchedProofs.step_some hs).2.2.2.2 q] at ho
    rcases List.mem_append.1 ho with ho | ho
    · exact J.ran q u hold' ho m hm' b j hj' hju hfd'
    · obtain ⟨x, hx, rfl⟩ := List.mem_map.1 ho
      obtain ⟨hq, hrd⟩ := SchedProofs.issued_mem I hx
      obtain ⟨m0, hm0, m1, m2, m3, m4⟩ := (I.ops q x hq).op
      have : part (sched s) x.id q = some m0 := by rw [← m1]; exact part_mem hm0
      rw [this] at hm'
      obtain rfl : m0 = m := by simpa using hm'
      refine hv.honest j hj' (m4 b j hj' hfd' ?_)
      obtain ⟨r1, r2⟩ := SchedProofs.reads_src (m3 b) hfd'.2.1
      cases hb : (x.src b).busy with
      | false => rfl
      | true => exact absurd ⟨r1, hb, rfl⟩ (hrd b (x.src b).preg)

theorem inv_run (J : Inv prog k s) {u : Nat} : Inv prog k (run prog k s u) := by
  refine ⟨J.lat, fun v hv => ?_, fun v hv => ?_, J.alone, ?_⟩
  · obtain ⟨h1, h2, h3, h4⟩ := J.dis v hv
    exact ⟨h1, h2, h3, h4⟩
  · obtain ⟨⟨h1, h2, h3, h4⟩, h5⟩ := J.rob v hv
    exact ⟨⟨h1, h2, h3, h4⟩, h5⟩
  · intro q v hv ho m hm b j hj hju hfd
    show (if j = u then true else s.w.done j) = true ∨ s.w.wrote j = true
    split
    · exact .inl rfl
    · exact J.ran q v hv ho m hm b j hj hju hfd

theorem inv_write (J : Inv prog k s) {u : Nat} : Inv prog k (write prog k s u) := by
  refine ⟨J.lat, fun v hv => ?_, fun v hv => ?_, J.alone, ?_⟩
  · obtain ⟨h1, h2, h3, h4⟩ := J.dis v hv
    exact ⟨h1, h2, h3, h4⟩
  · obtain ⟨⟨h1, h2, h3, h4⟩, h5⟩ := J.rob v hv
    exact ⟨⟨h1, h2, h3, h4⟩, h5⟩
  · intro q v hv ho m hm b j hj hju hfd
    show s.w.done j = true ∨ (if j = u then true else s.w.wrote j) = true
    split
    · exact .inr rfl
    · exact J.ran q v hv ho m hm b j hj hju hfd

/-- The renamed instructions older than one in the reorder buffer are in it. -/
theorem older_rob (hk : Good k.sp) (hr : Spine.Reach k.sp s.w.sp) {u : Nat} (hu : u ∈ robIds k.sp s.w.sp) :
    ∀ j ∈ Whole.older k.sp s.w u, j ∈ robIds k.sp s.w.sp ∧ j < u := by
  intro j hj
  have ho := (Props.C106_ordered hk hr).1
  have hin : inflight k.sp s.w.sp = Whole.ids k.sp s.w ++ latIds s.w.sp := rfl
  rw [hin] at ho
  have ho := (List.pairwise_append.1 ho).1
  have hsp := List.takeWhile_append_dropWhile (p := (· != u)) (l := Whole.ids k.sp s.w)
  have hud : u ∈ (Whole.ids k.sp s.w).dropWhile (· != u) := by
    have : u ∈ Whole.ids k.sp s.w := List.mem_append_left _ hu
    rw [← hsp] at this
    rcases List.mem_append.1 this with h' | h'
    · have := List.all_eq_true.1 (List.all_takeWhile (p := (· != u)) (l := Whole.ids k.sp s.w)) u h'; simp at this
    · exact h'
  rw [← hsp] at ho
  have hlt : j < u := (List.pairwise_append.1 ho).2.2 j hj u hud
  have : j ∈ Whole.ids k.sp s.w := by rw [← hsp]; exact List.mem_append_left _ hj
  refine ⟨?_, hlt⟩
  rcases List.mem_append.1 this with h' | h'
  · exact h'
  · have := SchedProofs.rob_lt_dis hk hr hu (List.mem_append_left _ h')
    omega

/-- Nobody older still has to produce what an issued operation reads. -/
theorem settled (hk : Good k.sp) (hr : Spine.Reach k.sp s.w.sp) (J : Inv prog k s) {u : Nat} (hu : u ∈ robIds k.sp s.w.sp)
    {m : MicroOp} (hm : m ∈ decompose (s.inst u).dec) (ho : u ∈ s.out m.iq) (hfd : m.src1FromDest = false) {b : Bool} {p : Nat}
    (hrd : reads (s.inst u) m b = some p) : Whole.Settled s.w (Whole.older k.sp s.w u) p := by
  intro j hj hde hdn hwn hpe
  obtain ⟨hjr, hju⟩ := older_rob hk hr hu j hj
  obtain ⟨⟨_, _, j3, j4⟩, j5, _⟩ := J.rob j hjr
  rw [j5] at j3 j4
  have := J.ran m.iq u hu ho m (part_mem hm) b j hjr hju
    ⟨j4.symm.trans hde, by rw [← hpe, j3] at hrd; exact hrd, by rw [hfd]; simpa using hju⟩
  rw [hdn, hwn] at this; simp at this

theorem amo_older (hk : Good k.sp) (hr : Spine.Reach k.sp s.w.sp) (J : Inv prog k s) {u : Nat} (hu : u ∈ robIds k.sp s.w.sp)
    (ht : (s.inst u).dec.type = .amo) : Whole.older k.sp s.w u = [] := by
  rw [List.eq_nil_iff_forall_not_mem]
  intro j hj
  obtain ⟨h1, h2⟩ := older_rob hk hr hu j hj
  have := J.alone u hu ht j h1
  omega

theorem canRun (hk : Good k.sp) (hr : Spine.Reach k.sp s.w.sp) (J : Inv prog k s) {u : Nat} (h : MayRun k s u) :
    Whole.CanRun prog k.sp s.w u := by
  obtain ⟨⟨hu, hs, _, _⟩, hftq, hF⟩ := J.rob u h.mem
  rw [hftq] at hu hs
  have key : ∀ b p, (s.inst u).dec.type ≠ .amo → (∃ m ∈ decompose (s.inst u).dec, reads (s.inst u) m b = some p) →
      Whole.Settled s.w (Whole.older k.sp s.w u) p := by
    intro b p hna ⟨m, hm, hrd⟩
    have hfd : m.src1FromDest = false := by
      cases hx : m.src1FromDest with
      | false => rfl
      | true => exact absurd (hF.2.2.1 m hm hx) hna
    exact settled hk hr J h.mem hm (h.parts _ m (part_mem hm) hfd) hfd hrd
  refine ⟨h.mem, h.fresh, fun h1 => ?_, fun h2 => ?_⟩
  · by_cases ht : (s.inst u).dec.type = .amo
    · rw [amo_older hk hr J h.mem ht]; intro j hj; cases hj
    · rw [hs]
      obtain ⟨m, hm, m1, m2⟩ := hF.1 (hu.1 h1)
      exact key false _ ht ⟨m, hm, by unfold reads; simp [m1, m2]⟩
  · by_cases ht : (s.inst u).dec.type = .amo
    · rw [amo_older hk hr J h.mem ht]; intro j hj; cases hj
    · rw [hs]
      obtain ⟨m, hm, m1, _⟩ := hF.2.1 (hu.2.1 h2)
      exact key true _ ht ⟨m, hm, by unfold reads; simp [m1]⟩

theorem canWrite (hk : Good k.sp) (hr : Spine.Reach k.sp s.w.sp) (J : Inv prog k s) {u : Nat} (h : MayWrite k s u) :
    Whole.CanWrite prog k.sp s.w u := by
  obtain ⟨⟨hu, hs, _, _⟩, hftq, hF⟩ := J.rob u h.mem
  rw [hftq] at hu hs
  by_cases hj : (s.inst u).dec.type = .jal ∨ (s.inst u).dec.type = .jalr
  · have hl := hu.2.2 hj
    exact ⟨h.mem, h.fresh, fun _ => .inr fun m a a' b => hl m a a' b b, fun _ => .inr fun m a b b' => hl m a a b b'⟩
  by_cases ht : (s.inst u).dec.type = .amo
  · have := amo_older hk hr J h.mem ht
    exact ⟨h.mem, h.fresh, fun _ => .inl (by rw [this]; intro j hj; cases hj), fun _ => .inl (by rw [this]; intro j hj; cases hj)⟩
  have hF' := hF.2.2.2 h.dest ht (fun e => hj (.inl e)) (fun e => hj (.inr e))
  have hfd : ∀ m ∈ decompose (s.inst u).dec, m.src1FromDest = false := by
    intro m hm
    cases hx : m.src1FromDest with
    | false => rfl
    | true => exact absurd (hF.2.2.1 m hm hx) ht
  refine ⟨h.mem, h.fresh, fun h1 => .inl ?_, fun h2 => .inl ?_⟩
  · rw [hs]
    obtain ⟨m, hm, m1, m2⟩ := hF'.1 (hu.1 h1)
    exact settled hk hr J h.mem hm (h.parts _ m (part_mem hm) m2) (hfd m hm) (b := false) (by unfold reads; simp [m1, hfd m hm])
  · rw [hs]
    obtain ⟨m, hm, m1, m2⟩ := hF'.2 (hu.2.1 h2)
    exact settled hk hr J h.mem hm (h.parts _ m (part_mem hm) m2) (hfd m hm) (b := true) (by unfold reads; simp [m1])

theorem inv_init (hk : Good k.sp) (prf : Nat → W) (pc : W) (m : M) : Inv prog k (init n k prf pc m) := by
  have hl := link_init (n := n) hk
  have hw : waiting (Spine.init n k.sp).dis = [] := by
    show (List.replicate k.sp.dis.banks none).filterMap id = []
    rw [List.filterMap_eq_nil_iff]; intro o ho; rw [(List.mem_replicate.1 ho).2]; rfl
  have hi : robIds k.sp (Spine.init n k.sp) = [] := by
    have := hl.sigs
    have : insts k.sp.L (Spine.init n k.sp).rob = [] := by simpa using this
    unfold robIds; rw [this]; rfl
  refine ⟨fun d hd => ?_, fun v hv => ?_, fun u hu => ?_, fun u hu => ?_, fun q u hu => ?_⟩
  · have := (List.mem_replicate.1 hd).2; cases this
  · have hv : v ∈ waiting (Spine.init n k.sp).dis := hv
    rw [hw] at hv; cases hv
  all_goals
    have hu : u ∈ robIds k.sp (Spine.init n k.sp) := hu
    rw [hi] at hu; cases hu

theorem reach (hk : Good k.sp) {prf : Nat → W} {pc : W} {m : M} (h : Reach prog k (init n k prf pc m) s) :
    Whole.Reach prog k.sp (Whole.init n k.sp prf pc m) s.w ∧ Sched.Reach k (sched s) ∧ Inv prog k s := by
  induction h with
  | init => exact ⟨.init, .init, inv_init hk prf pc m⟩
  | cycle c _ hv hs ih =>
    obtain ⟨h1, h2, J⟩ := ih
    obtain ⟨hw, hs'⟩ := cycle_some hs
    obtain ⟨_, bw, rw, Z, g, hl, I⟩ := SchedProofs.inv_reach hk h2
    obtain ⟨hi, _⟩ := WholeProofs.simulate hk h1
    exact ⟨by rw [hw]; exact .cycle _ h1 hv.stages, .step _ h2 hv.queues hs', inv_cycle hk hi hl I J hv hs⟩
  | run _ hc ih =>
    obtain ⟨h1, h2, J⟩ := ih
    obtain ⟨hr, _⟩ := SchedProofs.inv_reach hk h2
    exact ⟨.run h1 (canRun hk hr J hc), h2, inv_run J⟩
  | write _ hc ih =>
    obtain ⟨h1, h2, J⟩ := ih
    obtain ⟨hr, _⟩ := SchedProofs.inv_reach hk h2
    exact ⟨.write h1 (canWrite hk hr J hc), h2, inv_write J⟩
end

end Verif.OooProofs

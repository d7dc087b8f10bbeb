import Verif.Proofs.WakerSlots
import Verif.Proofs.Ooo
/-
The wake-up bus behind the issue queues: what is announced, and when.
-/
namespace Verif.WakerProofs
open Verif.Spine Verif.SpineProofs Verif.Waker
open Verif.Decode (DecInst MicroOp Iq decompose decodeEntry)
open Verif.BranchWindow (Flight)
open Verif.RobQueue (insts sig)
open Verif.DispatchGroup (waiting fired)
open Verif.IssueWindow (queued)
open Verif.Sched (part partBit)
open Verif.SchedProofs (Inv)

variable {n : Nat}

/-! ### Operations of an instruction -/

theorem int_op {d : DecInst} {m : MicroOp} (hm : m ∈ decompose d) (hi : m.iq = .int) : m.inst.destEn = d.destEn ∧
    m.op ≠ .load ∧ m.op ≠ .sta ∧ d.type ≠ .load ∧ d.type ≠ .amo ∧ ∀ x ∈ decompose d, x.inst.destEn = true → x = m := by
  revert hm
  unfold decompose
  cases ht : d.type <;> simp only [] <;> intro hm
  case amo =>
    exfalso
    split at hm
    · rw [List.mem_singleton] at hm; subst hm; cases hi
    · split at hm
      · simp only [List.mem_cons, List.not_mem_nil, or_false] at hm
        rcases hm with rfl | rfl <;> cases hi
      · simp only [List.mem_cons, List.not_mem_nil, or_false] at hm
        rcases hm with rfl | rfl | rfl <;> cases hi
  all_goals
    simp only [List.mem_cons, List.not_mem_nil, or_false] at hm
    first
      | (subst hm; first | (cases hi; done) | (refine ⟨rfl, by simp, by simp, by simp, by simp, ?_⟩; simp))
      | (rcases hm with rfl | rfl <;> first | (cases hi; done) | (refine ⟨rfl, by simp, by simp, by simp, by simp, ?_⟩; simp))

theorem late_int {d : DecInst} {m : MicroOp} (hm : m ∈ decompose d) (h : m.op = .mul ∨ m.op = .div ∨ m.op = .fp) : m.iq = .int := by
  revert hm
  unfold decompose
  cases ht : d.type <;> simp only [] <;> intro hm
  case amo =>
    exfalso
    split at hm
    · rw [List.mem_singleton] at hm; subst hm; simp at h
    · split at hm
      · simp only [List.mem_cons, List.not_mem_nil, or_false] at hm
        rcases hm with rfl | rfl <;> simp at h
      · simp only [List.mem_cons, List.not_mem_nil, or_false] at hm
        rcases hm with rfl | rfl | rfl <;> simp at h
  all_goals
    simp only [List.mem_cons, List.not_mem_nil, or_false] at hm
    first
      | (subst hm; first | rfl | (simp at h; done))
      | (rcases hm with rfl | rfl <;> first | rfl | (simp at h; done))

theorem dest_op {d : DecInst} {m : MicroOp} (hm : m ∈ decompose d) (hd : m.inst.destEn = true) (hs : m.op ≠ .sta) : d.destEn = true := by
  revert hm
  unfold decompose
  cases ht : d.type <;> simp only [] <;> intro hm
  case amo =>
    split at hm
    · rw [List.mem_singleton] at hm; subst hm; exact hd
    · split at hm
      · simp only [List.mem_cons, List.not_mem_nil, or_false] at hm
        rcases hm with rfl | rfl
        · exact absurd rfl hs
        · cases hd
      · simp only [List.mem_cons, List.not_mem_nil, or_false] at hm
        rcases hm with rfl | rfl | rfl
        · exact hd
        · cases hd
        · cases hd
  all_goals
    simp only [List.mem_cons, List.not_mem_nil, or_false] at hm
    first
      | (subst hm; exact hd)
      | (rcases hm with rfl | rfl <;> first | exact hd | (cases hd; done))

/-- Branches and stores have no destination. -/
def Plain (d : DecInst) : Prop := d.type = .br ∨ d.type = .store → d.destEn = false

theorem finish_dest (d : DecInst) : (Decode.decodeFinish d).type = d.type ∧ (d.destEn = false → (Decode.decodeFinish d).destEn = false) := by
  unfold Decode.decodeFinish
  simp only
  split <;> split <;> simp

theorem system_plain (w : BitVec 32) (d : DecInst) : (Decode.decodeSystem w d).type ≠ .br ∧ (Decode.decodeSystem w d).type ≠ .store := by
  unfold Decode.decodeSystem
  simp only
  repeat' split
  all_goals simp

theorem plain_decode (w : BitVec 32) (pf : Bool) : Plain (decodeEntry w pf) := by
  cases pf with
  | true => intro h; simp [decodeEntry] at h
  | false =>
    have h : decodeEntry w false = Decode.decodeFinish (Decode.decodeOpcode w (Decode.decodeFields w)) := rfl
    obtain ⟨h1, h2⟩ := finish_dest (Decode.decodeOpcode w (Decode.decodeFields w))
    rw [h]
    unfold Plain
    rw [h1]
    refine fun hx => h2 ?_
    revert hx
    clear h h1 h2
    unfold Decode.decodeOpcode
    split
    all_goals first
      | (intro hx; rcases hx with hx | hx
         · exact absurd hx (system_plain _ _).1
         · exact absurd hx (system_plain _ _).2)
      | (simp; done)
      | (simp only; intro hx; rcases hx with hx | hx <;> split at hx <;> (try split at hx) <;> cases hx)

theorem dest_int {d : DecInst} (hp : Plain d) {m : MicroOp} (hm : m ∈ decompose d) (hd : m.inst.destEn = true) (hl : m.op ≠ .load)
    (hs : m.op ≠ .sta) : m.iq = .int := by
  unfold Plain at hp
  revert hm
  unfold decompose
  cases ht : d.type <;> simp only [] <;> intro hm
  case amo =>
    exfalso
    split at hm
    · rw [List.mem_singleton] at hm; subst hm; exact hl rfl
    · split at hm
      · simp only [List.mem_cons, List.not_mem_nil, or_false] at hm
        rcases hm with rfl | rfl
        · exact hs rfl
        · cases hd
      · simp only [List.mem_cons, List.not_mem_nil, or_false] at hm
        rcases hm with rfl | rfl | rfl
        · exact hl rfl
        · cases hd
        · cases hd
  case br =>
    have := hp (.inl ht)
    rw [List.mem_singleton] at hm; subst hm
    rw [this] at hd; cases hd
  case store =>
    have := hp (.inr ht)
    simp only [List.mem_cons, List.not_mem_nil, or_false] at hm
    rcases hm with rfl | rfl
    · exact absurd rfl hs
    · simp only at hd; rw [this] at hd; cases hd
  all_goals
    simp only [List.mem_cons, List.not_mem_nil, or_false] at hm
    first
      | (subst hm; first | rfl | exact absurd rfl hl | exact absurd rfl hs)
      | (rcases hm with rfl | rfl <;> first | rfl | exact absurd rfl hl | exact absurd rfl hs | (cases hd; done))

/-! ### Destination registers -/

/-- The instruction's destination is the one recorded by rename. -/
def Dst (s : St n) (v : Dispatch.Inst n) : Prop := (s.info v.ftq).preg = v.destPreg ∧ (s.info v.ftq).destEn = v.dec.destEn

/-- No two instructions in flight have the same destination register. -/
theorem dest_inj {k : Spine.Cfg} {s : St n} (hk : Good k) (h : Spine.Reach k s) {u v : Nat} (hu : u ∈ robIds k s ++ disIds s)
    (hv : v ∈ robIds k s ++ disIds s) (du : (s.info u).destEn = true) (dv : (s.info v).destEn = true)
    (he : (s.info u).preg = (s.info v).preg) : u = v := by
  have hp := (Props.C106_registers hk h).nodup_iff.2 List.nodup_range
  have hp := (List.nodup_append.1 (List.nodup_append.1 hp).2.1).2.1
  unfold RenWindow.pregs renamed at hp
  rw [List.filter_map, List.map_map, List.Nodup, List.pairwise_map] at hp
  refine pair_inj (f := fun x => (s.info x).preg) hp (List.mem_filter.2 ⟨hu, du⟩) (List.mem_filter.2 ⟨hv, dv⟩) he

/-- No instruction in flight has register 0 for its destination. -/
theorem dest_pos {k : Spine.Cfg} {s : St n} (hk : Good k) (h : Spine.Reach k s) {u : Nat} (hu : u ∈ robIds k s ++ disIds s)
    (du : (s.info u).destEn = true) : (s.info u).preg ≠ 0 := by
  obtain ⟨bw, rw, Z, g, hl⟩ := link_reach hk h
  have h0 := (Props.C12_x0 (by have := hk.regs; omega) hk.pregs hl.rr).2.2.2
  rw [(Props.renamed_eq hl).1] at h0
  intro he
  refine h0 (List.mem_map.2 ⟨s.info u, List.mem_filter.2 ⟨List.mem_map_of_mem hu, du⟩, he⟩)

section
variable {k : Spine.Cfg} {s : St n} {c : Spine.Cyc n}
variable {bw : BranchWindow.Sys n} {rw : RenWindow.Sys} {Z : List (Flight n × Sig)} {g : Nat → BitVec 3}

/-- Where an instruction waiting, or leaving, comes from. -/
theorem dis_from (hl : Link k s bw rw Z g) (hf : flush s c = false) (hm : s.idu.latch.mispred = false)
    {u : Dispatch.Inst n} (hu : u ∈ (fired (disOut k s c)).map (·.inst) ++ waiting (Spine.step k s c).dis) :
    (∃ v ∈ waiting s.dis, u.ftq = v.ftq ∧ u.dec = v.dec ∧ u.destPreg = v.destPreg) ∨
    ∃ x ∈ taken (renSlots k s) s.lat, (disOut k s c).ready = true ∧ u.ftq = x.1.uid ∧ u.dec = x.1.dec ∧ u.destPreg = x.2.dest := by
  obtain ⟨h1, h2⟩ := hl.slots
  obtain ⟨_, _, e3, _⟩ := group_facts _ _ h1 h2
  have hwait := Proofs.Dispatch.step_waiting k.dis (Proofs.Dispatch.wf_reach hl.dr) (disIn k s c) hf hm
  change (fired (disOut k s c)).map (·.inst) ++ waiting (Spine.step k s c).dis =
    (waiting s.dis).map _ ++ (DispatchGroup.received (disOut k s c) (disIn k s c)).map _ at hwait
  rw [hwait] at hu
  rcases List.mem_append.1 hu with hu | hu
  · obtain ⟨v, hv, rfl⟩ := List.mem_map.1 hu
    exact .inl ⟨v, hv, rfl, rfl, rfl⟩
  · obtain ⟨v, hv, rfl⟩ := List.mem_map.1 hu
    have hv : v ∈ (if (disOut k s c).ready then (renOut (renSlots k s) s.lat).filterMap id else []) := hv
    split at hv
    · rename_i hR
      rw [e3] at hv
      obtain ⟨x, hx, rfl⟩ := List.mem_map.1 hv
      exact .inr ⟨x, hx, hR, rfl, rfl, rfl⟩
    · cases hv

theorem dst_dis (hl : Link k s bw rw Z g) (hd : ∀ v ∈ waiting s.dis, Dst s v) (hf : flush s c = false)
    (hm : s.idu.latch.mispred = false) {u : Dispatch.Inst n}
    (hu : u ∈ (fired (disOut k s c)).map (·.inst) ++ waiting (Spine.step k s c).dis) : Dst (Spine.step k s c) u := by
  rcases dis_from hl hf hm hu with ⟨v, hv, e1, e2, e3⟩ | ⟨x, hx, hR, e1, e2, e3⟩
  · obtain ⟨h1, h2⟩ := hd v hv
    unfold Dst
    rw [e1, e2, e3, info_w hl hv]
    exact ⟨h1, h2⟩
  · unfold Dst
    rw [e1, e2, e3, info_new hl hR hx]
    exact ⟨rfl, rfl⟩

theorem info_rob (hk : Good k) (hr : Spine.Reach k s) (hl : Link k s bw rw Z g) {u : Nat} (hu : u ∈ robIds k s) :
    (Spine.step k s c).info u = s.info u := by
  refine info_old hl fun d hd he => ?_
  have := SchedProofs.rob_lt_dis hk hr hu (List.mem_append_right _ (List.mem_map_of_mem (f := fun d : DInst n => d.uid) hd))
  omega

end

/-! ### The invariant -/

structure WInv (k : Waker.Cfg) (s : State n) (bw : BranchWindow.Sys n) : Prop where
  dis : ∀ v ∈ waiting s.sc.sp.dis, Dst s.sc.sp v
  rob : ∀ u ∈ robIds k.sc.sp s.sc.sp, Dst s.sc.sp (s.sc.inst u) ∧ (s.sc.inst u).ftq = u
  plain : ∀ u ∈ robIds k.sc.sp s.sc.sp, Plain (s.sc.inst u).dec
  len : s.mul.length = k.mulLat - 1
  out : ∀ u, 0 < s.since u → ∃ q, u ∈ s.sc.out q
  pend : ∀ op p b r, Pend s op p b r → ∃ v ∈ insts k.sc.sp.L s.sc.sp.rob, ∃ m, computes (s.sc.inst v.id).dec m ∧ m.op = op ∧
    (s.sc.inst v.id).destPreg = p ∧ v.cplt &&& partBit (s.sc.inst v.id).dec .int = 0#3 ∧
    (∃ f ∈ bw.win, f.seq = v.id ∧ f.mask = b) ∧ 0 < s.since v.id ∧ s.since v.id + r = delay k m
  ann : ∀ u ∈ robIds k.sc.sp s.sc.sp, ∀ m, computes (s.sc.inst u).dec m →
    (0 < s.since u ↔ u ∈ s.sc.out .int) ∧ (s.sc.ann u = true ↔ delay k m < s.since u) ∧
    (0 < s.since u → s.since u ≤ delay k m → ∃ b, Pend s m.op (s.sc.inst u).destPreg b (delay k m - s.since u))

section
variable {k : Waker.Cfg} {s s' : State n} {c : Waker.Cyc n} {bw : BranchWindow.Sys n} {rw : RenWindow.Sys}
variable {Z : List (Flight n × Sig)} {g : Nat → BitVec 3} {ws : List Nat}

theorem issue_from {o : Issue n} (ho : o ∈ issues k s c) (ws : List Nat) : ∃ q, o.uop ∈ Sched.issued k.sc s.sc (cyc c ws) q ∧
    part s.sc o.uop.id q = some o.mop := by
  obtain ⟨q, _, ho⟩ := List.mem_flatMap.1 ho
  obtain ⟨gr, hg, he⟩ := List.mem_filterMap.1 ho
  obtain ⟨x, hx, he⟩ := Option.bind_eq_some_iff.1 he
  obtain ⟨m, hm, rfl⟩ := Option.map_eq_some_iff.1 he
  exact ⟨q, List.mem_filterMap.2 ⟨gr, hg, hx⟩, hm⟩

theorem issue_of (I : Inv k.sc s.sc bw) {q : Iq} {x : IssueQueue.Uop n} (hx : x ∈ Sched.issued k.sc s.sc (cyc c ws) q) {m : MicroOp}
    (hm : part s.sc x.id q = some m) : ∃ o ∈ issues k s c, o.uop = x ∧ o.mop = m ∧ ∃ p ∈ k.sc.ports q, o.port = p.idx := by
  obtain ⟨gr, hg, he⟩ := List.mem_filterMap.1 hx
  obtain ⟨_, _, _, _, hp, _⟩ := Props.C23_sound (I.iqr q) (Sched.iqIn k.sc s.sc (cyc c ws) q) (x := gr.1) (p := gr.2) hg
  refine ⟨⟨x, gr.2.idx, m⟩, List.mem_flatMap.2 ⟨q, by cases q <;> simp [queues], List.mem_filterMap.2 ⟨gr, hg, ?_⟩⟩, rfl, rfl, _, hp, rfl⟩
  rw [he, Option.bind_some, hm]; rfl

/-- An operation issued is in its queue, and is an operation of its instruction. -/
theorem issue_q (I : Inv k.sc s.sc bw) {o : Issue n} (ho : o ∈ issues k s c) : ∃ q, o.uop ∈ queued (s.sc.iq q) ∧ o.mop.iq = q ∧
    o.mop ∈ decompose (s.sc.inst o.uop.id).dec ∧ ∀ ws, o.uop ∈ Sched.issued k.sc s.sc (cyc c ws) q := by
  obtain ⟨q, h1, h2⟩ := issue_from ho []
  have hq := (SchedProofs.issued_mem I h1).1
  have hm := List.mem_of_find?_eq_some h2
  have hi : o.mop.iq = q := by simpa using List.find?_some h2
  refine ⟨q, hq, hi, hm, fun ws => ?_⟩
  exact h1

theorem same_inst (hk : Good k.sc.sp) (hr : Spine.Reach k.sc.sp s.sc.sp) (W : WInv k s bw) {u v : Nat} (hu : u ∈ robIds k.sc.sp s.sc.sp)
    (hv : v ∈ robIds k.sc.sp s.sc.sp) (du : (s.sc.inst u).dec.destEn = true) (dv : (s.sc.inst v).dec.destEn = true)
    (he : (s.sc.inst u).destPreg = (s.sc.inst v).destPreg) : u = v := by
  obtain ⟨⟨a1, a2⟩, a3⟩ := W.rob u hu
  obtain ⟨⟨b1, b2⟩, b3⟩ := W.rob v hv
  rw [a3] at a1 a2
  rw [b3] at b1 b2
  exact dest_inj hk hr (List.mem_append_left _ hu) (List.mem_append_left _ hv) (a2.trans du) (b2.trans dv)
    (a1.trans (he.trans b1.symm))

/-- The operation writing an instruction's destination leaves its queue once. -/
theorem not_again (I : Inv k.sc s.sc bw) (W : WInv k s bw) {o : Issue n} (ho : o ∈ issues k s c) {m : MicroOp}
    (hm : computes (s.sc.inst o.uop.id).dec m) (hd : o.mop.inst.destEn = true) : s.since o.uop.id = 0 ∧ o.mop = m := by
  obtain ⟨q, h1, h2, h3, _⟩ := issue_q I ho
  have hrob := SchedProofs.queued_rob I h1
  have he : o.mop = m := (int_op hm.1 hm.2.2).2.2.2.2.2 _ h3 hd
  refine ⟨?_, he⟩
  have hq : q = .int := by rw [← h2, he]; exact hm.2.2
  subst hq
  cases hs : s.since o.uop.id with
  | zero => rfl
  | succ j =>
    exfalso
    have hout := (W.ann _ hrob m hm).1.1 (by omega)
    have := I.once _ hrob .int
    have c1 : 0 < ((queued (s.sc.iq .int)).map (·.id)).count o.uop.id := List.count_pos_iff.2 (List.mem_map_of_mem h1)
    have c2 : 0 < (s.sc.out .int).count o.uop.id := List.count_pos_iff.2 hout
    split at this <;> omega

theorem dst_pos (hk : Good k.sc.sp) (hr : Spine.Reach k.sc.sp s.sc.sp) (W : WInv k s bw) {u : Nat} (hu : u ∈ robIds k.sc.sp s.sc.sp)
    (du : (s.sc.inst u).dec.destEn = true) : (s.sc.inst u).destPreg ≠ 0 := by
  obtain ⟨⟨a1, a2⟩, a3⟩ := W.rob u hu
  rw [a3] at a1 a2
  rw [← a1]
  exact dest_pos hk hr (List.mem_append_left _ hu) (a2.trans du)

/-- Everything announced is the destination of an instruction in the reorder buffer, or register 0. -/
theorem announced (hv : Waker.Valid k s c) (I : Inv k.sc s.sc bw) (W : WInv k s bw) (hw : wakes k s c = some ws) {p : Nat} (hp : p ∈ ws) :
    p = 0 ∨ ∃ u ∈ robIds k.sc.sp s.sc.sp, (s.sc.inst u).destPreg = p ∧ (s.sc.inst u).dec.destEn = true := by
  rcases (wakes_mem hw p).1 hp with hp | ⟨op, b, hp⟩ | hp
  · rcases hv.loads p hp with h0 | ⟨u, hu, h1, h2, _⟩
    · exact .inl h0
    · exact .inr ⟨u, hu, h1, h2⟩
  · right
    obtain ⟨v, hvm, m, hm, _, h2, _⟩ := W.pend _ _ _ _ hp
    exact ⟨v.id, List.mem_map_of_mem hvm, h2, by rw [← (int_op hm.1 hm.2.2).1]; exact hm.2.1⟩
  · right
    obtain ⟨o, ho, rfl⟩ := List.mem_map.1 hp
    obtain ⟨ho, hc⟩ := List.mem_filter.1 ho
    simp only [Bool.and_eq_true, decide_eq_true_eq] at hc
    obtain ⟨q, h1, h2, h3, _⟩ := issue_q I ho
    exact ⟨o.uop.id, SchedProofs.queued_rob I h1, rfl, dest_op h3 hc.1.1.1.1 hc.1.2⟩

theorem sched_valid (hk : Good k.sc.sp) (hr : Spine.Reach k.sc.sp s.sc.sp) (hv : Waker.Valid k s c) (I : Inv k.sc s.sc bw) (W : WInv k s bw)
    (hw : wakes k s c = some ws) : Sched.Valid k.sc s.sc (cyc c ws) := by
  refine ⟨⟨hv.hw.width, hv.hw.res, hv.hw.wbs⟩, hv.parts, fun p hp u hu hd he => ?_⟩
  obtain ⟨b1, b2⟩ := W.dis u hu
  rcases announced hv I W hw hp with rfl | ⟨v, hvm, h1, h2⟩
  · exact dest_pos hk hr (List.mem_append_right _ (List.mem_map_of_mem hu)) (b2.trans hd) (b1.trans he)
  obtain ⟨⟨a1, a2⟩, a3⟩ := W.rob v hvm
  rw [a3] at a1 a2
  have := dest_inj hk hr (List.mem_append_left _ hvm) (List.mem_append_right _ (List.mem_map_of_mem hu)) (a2.trans h2) (b2.trans hd)
    (a1.trans (h1.trans (he.symm.trans b1.symm)))
  have hlt := SchedProofs.rob_lt_dis hk hr hvm (List.mem_append_left _ (List.mem_map_of_mem (f := fun d : Dispatch.Inst n => d.ftq) hu))
  omega

/-- Is the destination of a computing instruction announced? -/
theorem announce_iff (hk : Good k.sc.sp) (ha : Alu k) (hr : Spine.Reach k.sc.sp s.sc.sp) (hv : Waker.Valid k s c) (I : Inv k.sc s.sc bw)
    (W : WInv k s bw) (hw : wakes k s c = some ws) {u : Nat} (hu : u ∈ robIds k.sc.sp s.sc.sp) {m : MicroOp}
    (hm : computes (s.sc.inst u).dec m) : (s.sc.inst u).destPreg ∈ ws ↔ (0 < s.since u ∧ s.since u = delay k m) ∨
      (delay k m = 0 ∧ ∃ o ∈ issues k s c, o.uop.id = u ∧ o.mop.inst.destEn = true) := by
  obtain ⟨i1, i2, i3, i4, i5, i6⟩ := int_op hm.1 hm.2.2
  have du : (s.sc.inst u).dec.destEn = true := by rw [← i1]; exact hm.2.1
  rw [wakes_mem hw]
  constructor
  · rintro (hp | ⟨op, b, hp⟩ | hp)
    · exfalso
      rcases hv.loads _ hp with h0 | ⟨v, hvm, h1, h2, h3⟩
      · exact dst_pos hk hr W hu du h0
      obtain rfl := same_inst hk hr W hu hvm du h2 h1.symm
      rcases h3 with h3 | h3
      · exact i4 h3
      · exact i5 h3
    · obtain ⟨v, hvm, m', hm', _, h2, _, _, h3, h4⟩ := W.pend _ _ _ _ hp
      have dv : (s.sc.inst v.id).dec.destEn = true := by rw [← (int_op hm'.1 hm'.2.2).1]; exact hm'.2.1
      obtain rfl := same_inst hk hr W hu (List.mem_map_of_mem hvm) du dv h2.symm
      obtain rfl := i6 m' hm'.1 hm'.2.1
      exact .inl ⟨h3, by omega⟩
    · obtain ⟨o, ho, he⟩ := List.mem_map.1 hp
      obtain ⟨ho, hc⟩ := List.mem_filter.1 ho
      simp only [Bool.and_eq_true, decide_eq_true_eq] at hc
      obtain ⟨q, h1, h2, h3, _⟩ := issue_q I ho
      obtain rfl := same_inst hk hr W hu (SchedProofs.queued_rob I h1) du (dest_op h3 hc.1.1.1.1 hc.1.2) he.symm
      obtain rfl := i6 o.mop h3 hc.1.1.1.1
      refine .inr ⟨?_, o, ho, rfl, hc.1.1.1.1⟩
      unfold delay; rw [if_pos hc.1.1.1.2]
  · rintro (⟨h1, h2⟩ | ⟨h1, o, ho, rfl, hd⟩)
    · obtain ⟨b, hb⟩ := (W.ann u hu m hm).2.2 h1 (by omega)
      rw [h2, Nat.sub_self] at hb
      exact .inr (.inl ⟨_, b, hb⟩)
    · right; right
      obtain ⟨q, hq, h2, h3, h4⟩ := issue_q I ho
      obtain rfl := i6 o.mop h3 hd
      have hqi : q = .int := by rw [← h2]; exact hm.2.2
      subst hqi
      have hpm : part s.sc o.uop.id .int = some o.mop := by rw [← h2]; exact OooProofs.part_mem h3
      obtain ⟨o', ho', e1, e2, p, hp, e3⟩ := issue_of I (h4 []) hpm
      refine List.mem_map.2 ⟨o', List.mem_filter.2 ⟨ho', ?_⟩, by unfold dest; rw [e1]⟩
      have hlat : latency k o.mop ≤ 1 := by
        unfold delay at h1
        split at h1
        · assumption
        · split at h1 <;> omega
      simp only [Bool.and_eq_true, decide_eq_true_eq]
      rw [e2]
      exact ⟨⟨⟨⟨hd, hlat⟩, i2⟩, i3⟩, by rw [e3]; exact ha p hp⟩

theorem alive_iff {f : Flight n} (hf : flush s.sc.sp (Sched.hw k.sc s.sc (cyc c ws)) = false) :
    alive (ctl k s c) f.mask = true ↔ BranchWindow.killed (Idu.combBranch s.sc.sp.idu) f = false := by
  have hf : flush s.sc.sp (Sched.hw k.sc s.sc ⟨c.hw, c.fuReady⟩) = false := hf
  unfold alive BranchWindow.killed ctl Exu.Ctl.mask
  simp only [hf, Bool.not_false, Bool.true_and, Bool.not_eq_true']
  unfold Idu.combBranch
  cases hm : s.sc.sp.idu.latch.mispred <;> simp [Idu.bit, BitVec.twoPow]

/-- An instruction one of whose operations is not finished stays, unless squashed. -/
theorem survive (hk : Good k.sc.sp) (hr : Spine.Reach k.sc.sp s.sc.sp) (hl : Link k.sc.sp s.sc.sp bw rw Z g) (I : Inv k.sc s.sc bw)
    (hv : Sched.Valid k.sc s.sc (cyc c ws)) (h : Sched.step k.sc s.sc (cyc c ws) = some s'.sc) {Z' : List (Flight n × Sig)}
    (hl' : Link k.sc.sp (Spine.step k.sc.sp s.sc.sp (Sched.hw k.sc s.sc (cyc c ws)))
      (BranchWindow.stepSys k.sc.sp.maxBr bw (iB k.sc.sp s.sc.sp (Sched.hw k.sc s.sc (cyc c ws))))
      (RenWindow.stepSys k.sc.sp.P k.sc.sp.A n rw (iR k.sc.sp s.sc.sp (Sched.hw k.sc s.sc (cyc c ws)))) Z'
      (RobQueue.report g (robIn k.sc.sp s.sc.sp (Sched.hw k.sc s.sc (cyc c ws)))))
    {v : Rob.Uop} (hvm : v ∈ insts k.sc.sp.L s.sc.sp.rob) {m : MicroOp} (hm : computes (s.sc.inst v.id).dec m)
    (hc : v.cplt &&& partBit (s.sc.inst v.id).dec .int = 0#3) {f : Flight n} (hf : f ∈ bw.win) (hs : f.seq = v.id)
    (hal : alive (ctl k s c) f.mask = true)
    (hrep : ∀ w ∈ c.hw.wbs ++ c.hw.res.map brWb, w.robIdx = v.robIdx → w.bit &&& partBit (s.sc.inst v.id).dec .int = 0#3) :
    ∃ v' ∈ insts k.sc.sp.L s'.sc.sp.rob, v'.id = v.id ∧ v'.cplt &&& partBit (s.sc.inst v.id).dec .int = 0#3 ∧
      ∃ f' ∈ (BranchWindow.stepSys k.sc.sp.maxBr bw (iB k.sc.sp s.sc.sp (Sched.hw k.sc s.sc (cyc c ws)))).win, f'.seq = v.id ∧
        f'.mask = f.mask &&& ~~~(ctl k s c).clear := by
  have hfl : flush s.sc.sp (Sched.hw k.sc s.sc (cyc c ws)) = false := by
    unfold alive at hal
    rw [Bool.and_eq_true, Bool.not_eq_true'] at hal
    exact hal.1
  have hnc : Rob.complete v = false := by
    cases hcc : Rob.complete v with
    | false => rfl
    | true =>
      exfalso
      have hcc : v.cplt = v.expect := by unfold Rob.complete at hcc; simpa using hcc
      rw [hcc, I.expect v hvm, ← hm.2.2] at hc
      exact (SchedProofs.part_bit _ m hm.1).2 hc
  have hst := SchedProofs.stays hk hr hl hv.hw hfl hvm hnc hf hs ((alive_iff hfl).1 hal)
  obtain ⟨v', hv', e'⟩ := List.mem_map.1 hst
  have e' : v'.id = v.id := e'
  have hsig : sig v' = sig v := by
    rcases (SchedProofs.rob_old hk hl hv').2 with ⟨u, hu, e⟩ | ⟨_, a, ha, e⟩
    · have : u.id = v.id := by rw [← e', show v'.id = u.id from congrArg Prod.fst e]
      rw [e, SchedProofs.id_inj hk hr hu hvm this]
    · exfalso
      have := SchedProofs.rob_lt_dis hk hr (List.mem_map_of_mem (f := fun v : Rob.Uop => v.id) hvm)
        (List.mem_append_left _ (SchedProofs.fired_dis hl ha))
      rw [← e', show v'.id = a.inst.ftq from congrArg Prod.fst e] at this
      omega
  refine ⟨v', by rw [(SchedProofs.step_some h).2.1]; exact hv', e', SchedProofs.cplt_old hk hl hl' hvm hv' hsig hc hrep, ?_⟩
  obtain ⟨_, _, f', hf', g1, g2⟩ := SchedProofs.flight_next hl hl' hf (by rw [hs]; exact hst)
  exact ⟨f', hf', g1.trans hs, g2⟩

theorem winv_step (hk : Good k.sc.sp) (ha : Alu k) (hr : Spine.Reach k.sc.sp s.sc.sp) (hl : Link k.sc.sp s.sc.sp bw rw Z g)
    (I : Inv k.sc s.sc bw) (W : WInv k s bw) (hv : Waker.Valid k s c) (h : Waker.step k s c = some s')
    (hw : wakes k s c = some ws) {Z' : List (Flight n × Sig)}
    (hl' : Link k.sc.sp (Spine.step k.sc.sp s.sc.sp (Sched.hw k.sc s.sc (cyc c ws)))
      (BranchWindow.stepSys k.sc.sp.maxBr bw (iB k.sc.sp s.sc.sp (Sched.hw k.sc s.sc (cyc c ws))))
      (RenWindow.stepSys k.sc.sp.P k.sc.sp.A n rw (iR k.sc.sp s.sc.sp (Sched.hw k.sc s.sc (cyc c ws)))) Z'
      (RobQueue.report g (robIn k.sc.sp s.sc.sp (Sched.hw k.sc s.sc (cyc c ws))))) :
    WInv k s' (BranchWindow.stepSys k.sc.sp.maxBr bw (iB k.sc.sp s.sc.sp (Sched.hw k.sc s.sc (cyc c ws)))) := by
  obtain ⟨ws', hw', hst, hmul, _, _, hsince⟩ := step_some h
  obtain rfl : ws' = ws := by rw [hw] at hw'; cases hw'; rfl
  have hvs := sched_valid hk hr hv I W hw
  obtain ⟨_, hsp, _, hann, hout⟩ := SchedProofs.step_some hst
  have hids : ∀ u ∈ robIds k.sc.sp s'.sc.sp, flush s.sc.sp (Sched.hw k.sc s.sc (cyc c ws')) = false ∧ (u ∈ robIds k.sc.sp s.sc.sp ∨
      s.sc.sp.idu.latch.mispred = false ∧ ∃ a ∈ fired (Sched.dis k.sc s.sc (cyc c ws')), u = a.inst.ftq) := by
    intro u hu
    rw [hsp] at hu
    exact SchedProofs.ids_from hk hl hu
  have hold : ∀ u ∈ robIds k.sc.sp s.sc.sp, s'.sc.inst u = s.sc.inst u := fun u hu => SchedProofs.inst_old hst hl hk hr hu
  have hnew : ∀ a ∈ fired (Sched.dis k.sc s.sc (cyc c ws')), s'.sc.inst a.inst.ftq = a.inst :=
    fun a ha => SchedProofs.inst_new hst hl hk hr ha
  have hany : ∀ u, ((issues k s c).any fun o => o.uop.id == u && o.mop.inst.destEn) = true ↔
      ∃ o ∈ issues k s c, o.uop.id = u ∧ o.mop.inst.destEn = true := by
    intro u; simp [List.any_eq_true]
  have hnow : ∀ u, (∃ o ∈ issues k s c, o.uop.id = u ∧ o.mop.inst.destEn = true) → s'.since u = 1 := by
    intro u hu; rw [hsince, if_pos ((hany u).2 hu)]
  have hlater : ∀ u, ¬ (∃ o ∈ issues k s c, o.uop.id = u ∧ o.mop.inst.destEn = true) →
      s'.since u = if s.since u = 0 then 0 else s.since u + 1 := by
    intro u hu; rw [hsince, if_neg (fun hc => hu ((hany u).1 hc))]
  refine ⟨?_, ?_, ?_, ?_, ?_, ?_, ?_⟩
  · intro v hvm
    rw [hsp] at hvm ⊢
    cases hfm : (flush s.sc.sp (Sched.hw k.sc s.sc (cyc c ws')) || s.sc.sp.idu.latch.mispred) with
    | true => rw [(emptied (k := k.sc.sp) (by simpa using hfm)).1] at hvm; cases hvm
    | false =>
      obtain ⟨hf, hm⟩ := Bool.or_eq_false_iff.1 hfm
      exact dst_dis hl W.dis hf hm (List.mem_append_right _ hvm)
  · intro u hu
    obtain ⟨hf, hu | ⟨hm, a, hfa, rfl⟩⟩ := hids u hu
    · obtain ⟨⟨h1, h2⟩, h3⟩ := W.rob u hu
      rw [hold u hu, hsp]
      refine ⟨?_, h3⟩
      unfold Dst
      rw [h3] at h1 h2 ⊢
      rw [info_rob hk hr hl hu]
      exact ⟨h1, h2⟩
    · rw [hnew a hfa, hsp]
      exact ⟨dst_dis hl W.dis hf hm (List.mem_append_left _ (List.mem_map.2 ⟨a, hfa, rfl⟩)), rfl⟩
  · intro u hu
    obtain ⟨hf, hu | ⟨hm, a, hfa, rfl⟩⟩ := hids u hu
    · rw [hold u hu]; exact W.plain u hu
    · rw [hnew a hfa]
      have D := SchedProofs.decd_reach Plain plain_decode hk hr
      rcases dis_from hl hf hm (List.mem_append_left _ (List.mem_map.2 ⟨a, hfa, rfl⟩)) with ⟨v, hv, _, e2, _⟩ | ⟨x, hx, _, _, e2, _⟩
      · rw [e2]; exact D.dis v hv
      · rw [e2]
        obtain ⟨h1, h2⟩ := hl.slots
        exact D.lat _ (by rw [(group_facts _ _ h1 h2).2.2.2.2.1]; exact List.mem_append_left _ (List.mem_map_of_mem hx))
  · rw [mul_length hmul]; exact W.len
  · intro u hu
    by_cases hi : ∃ o ∈ issues k s c, o.uop.id = u ∧ o.mop.inst.destEn = true
    · obtain ⟨o, ho, rfl, _⟩ := hi
      obtain ⟨q, _, _, _, h4⟩ := issue_q I ho
      refine ⟨q, ?_⟩
      rw [hout q]
      exact List.mem_append_right _ (List.mem_map_of_mem (h4 ws'))
    · rw [hlater u hi] at hu
      split at hu
      · omega
      · obtain ⟨q, hq⟩ := W.out u (by omega)
        exact ⟨q, by rw [hout q]; exact List.mem_append_left _ hq⟩
  · intro op p b' r hp
    obtain ⟨b, hal, rfl, hcase⟩ := (pend_step h W.len op p b' r).1 hp
    rcases hcase with hp0 | ⟨o, ho, hlt, rfl, rfl, rfl, hr1⟩
    · obtain ⟨v, hvm, m, hm, h1, h2, h3, ⟨f, hf, f1, f2⟩, h4, h5⟩ := W.pend _ _ _ _ hp0
      have hrob : v.id ∈ robIds k.sc.sp s.sc.sp := List.mem_map_of_mem hvm
      subst f2
      obtain ⟨v', g1, g2, g3, f', g4, g5, g6⟩ := survive hk hr hl I hvs hst hl' hvm hm h3 hf f1 hal
        (fun w hw hwi => hv.units w hw v hvm hwi.symm m hm (by omega))
      have hs1 : s'.since v.id = s.since v.id + 1 := by
        rw [hlater, if_neg (by omega)]
        rintro ⟨o, ho, e1, e2⟩
        rw [← e1] at hm
        have := (not_again I W ho hm e2).1
        rw [e1] at this; omega
      refine ⟨v', g1, m, ?_, h1, ?_, ?_, ⟨f', g4, by rw [g2]; exact g5, g6⟩, ?_, ?_⟩
      · rw [g2, hold _ hrob]; exact hm
      · rw [g2, hold _ hrob]; exact h2
      · rw [g2, hold _ hrob]; exact g3
      · rw [g2, hs1]; omega
      · rw [g2, hs1]; omega
    · obtain ⟨q, hq, e1, e2, h4⟩ := issue_q I ho
      have hop : o.mop.op = .mul ∨ o.mop.op = .div ∨ o.mop.op = .fp := by
        have := hlt.2
        unfold latency at this
        split at this <;> simp_all
      have hint := late_int e2 hop
      have hm : computes (s.sc.inst o.uop.id).dec o.mop := ⟨e2, hlt.1, hint⟩
      obtain ⟨v, hvm, v1, v2, v3, v4⟩ := (I.ops q _ hq).mem
      obtain ⟨f, hf, f1, f2⟩ := (I.ops q _ hq).flight
      have hqi : q = .int := by rw [← e1]; exact hint
      subst hqi
      have hrob : o.uop.id ∈ robIds k.sc.sp s.sc.sp := SchedProofs.queued_rob I hq
      rw [← v1] at hm v4
      obtain ⟨v', g1, g2, g3, f', g4, g5, g6⟩ := survive hk hr hl I hvs hst hl' hvm hm v4 hf (f1.trans v1.symm) (by rw [f2]; exact hal)
        (fun w hw hwi => hv.parts w hw v hvm hwi.symm .int _ hq v1.symm)
      rw [v1] at g2 g3 g5 hm
      refine ⟨v', g1, o.mop, ?_, rfl, ?_, ?_, ⟨f', g4, by rw [g2]; exact g5, by rw [g6, f2]⟩, ?_, ?_⟩
      · rw [g2, hold _ hrob]; exact hm
      · rw [g2, hold _ hrob]; rfl
      · rw [g2, hold _ hrob]; exact g3
      · rw [g2, hnow _ ⟨o, ho, rfl, hlt.1⟩]; omega
      · rw [g2, hnow _ ⟨o, ho, rfl, hlt.1⟩]; omega
  · intro u hu m hm
    obtain ⟨hfl, hcase⟩ := hids u hu
    rcases hcase with hu0 | ⟨_, a, hfa, rfl⟩
    · have hi := hold u hu0
      rw [hi] at hm ⊢
      obtain ⟨A1, A2, A3⟩ := W.ann u hu0 m hm
      obtain ⟨i1, _, _, _, _, i6⟩ := int_op hm.1 hm.2.2
      have du : (s.sc.inst u).dec.destEn = true := by rw [← i1]; exact hm.2.1
      have hkey := announce_iff hk ha hr hv I W hw hu0 hm
      have hA : s'.sc.ann u = true ↔ s.sc.ann u = true ∨ (s.sc.inst u).destPreg ∈ ws' := by
        rw [hann u, decide_eq_true hu0, du, Bool.true_and, Bool.true_and, Bool.or_eq_true, show (cyc c ws').hw.wakes = ws' from rfl,
          List.contains_iff_mem]
      have hO : u ∈ s'.sc.out .int ↔ u ∈ s.sc.out .int ∨ ∃ o ∈ issues k s c, o.uop.id = u ∧ o.mop.inst.destEn = true := by
        rw [hout .int, List.mem_append]
        refine or_congr Iff.rfl ?_
        constructor
        · intro hx
          obtain ⟨x, hx2, rfl⟩ := List.mem_map.1 hx
          obtain ⟨o, ho, e1, e2, _⟩ := issue_of I hx2 (show part s.sc x.id .int = some m by rw [← hm.2.2]; exact OooProofs.part_mem hm.1)
          exact ⟨o, ho, by rw [e1], by rw [e2]; exact hm.2.1⟩
        · rintro ⟨o, ho, rfl, hd⟩
          obtain ⟨q, _, e1, e2, h4⟩ := issue_q I ho
          obtain rfl := i6 o.mop e2 hd
          have hqi : q = .int := by rw [← e1]; exact hm.2.2
          subst hqi
          exact List.mem_map_of_mem (h4 ws')
      have hus : u ∈ robIds k.sc.sp (Spine.step k.sc.sp s.sc.sp (Sched.hw k.sc s.sc (cyc c ws'))) := by rw [← hsp]; exact hu
      by_cases hi : ∃ o ∈ issues k s c, o.uop.id = u ∧ o.mop.inst.destEn = true
      · rw [hnow u hi]
        obtain ⟨o, ho, rfl, hd⟩ := id hi
        obtain ⟨hz, rfl⟩ := not_again I W ho hm hd
        have hna : ¬ s.sc.ann o.uop.id = true := fun hx => by have := A2.1 hx; omega
        refine ⟨⟨fun _ => hO.2 (.inr hi), fun _ => by omega⟩, ?_, fun _ hle => ?_⟩
        · rw [hA, hkey]
          constructor
          · rintro (h1 | h1 | h1)
            · exact absurd h1 hna
            · omega
            · omega
          · intro h1
            exact .inr (.inr ⟨by omega, hi⟩)
        · obtain ⟨q, hq, e1, e2, _⟩ := issue_q I ho
          obtain ⟨f, hf, f1, f2⟩ := (I.ops q _ hq).flight
          obtain ⟨_, hnk, _⟩ := SchedProofs.flight_next hl hl' hf (by rw [f1]; exact hus)
          refine ⟨_, (pend_step h W.len _ _ _ _).2 ⟨o.uop.brMask, ?_, rfl, .inr ⟨o, ho, ⟨hd, ?_⟩, rfl, rfl, rfl, by omega⟩⟩⟩
          · rw [← f2]; exact (alive_iff hfl).2 hnk
          · unfold delay at hle
            split at hle
            · omega
            · omega
      · rw [hlater u hi]
        by_cases hz : s.since u = 0
        · rw [if_pos hz]
          rw [hz] at A1 A2
          refine ⟨⟨fun hx => by omega, fun hx => ?_⟩, ?_, fun hx => by omega⟩
          · rcases hO.1 hx with hx | hx
            · exact A1.2 hx
            · exact absurd hx hi
          · rw [hA, hkey, hz]
            constructor
            · rintro (h1 | h1 | h1)
              · exact A2.1 h1
              · omega
              · exact absurd h1.2 hi
            · intro h1; omega
        · rw [if_neg hz]
          refine ⟨⟨fun _ => hO.2 (.inl (A1.1 (by omega))), fun _ => by omega⟩, ?_, fun _ hle => ?_⟩
          · rw [hA, hkey, A2]
            constructor
            · rintro (h1 | h1 | h1)
              · omega
              · omega
              · exact absurd h1.2 hi
            · intro h1
              by_cases h2 : delay k m < s.since u
              · exact .inl h2
              · exact .inr (.inl ⟨by omega, by omega⟩)
          · obtain ⟨b, hb⟩ := A3 (by omega) (by omega)
            obtain ⟨v, hvm, m', hm', _, h2, _, ⟨f, hf, f1, f2⟩, _, _⟩ := W.pend _ _ _ _ hb
            have dv : (s.sc.inst v.id).dec.destEn = true := by rw [← (int_op hm'.1 hm'.2.2).1]; exact hm'.2.1
            obtain rfl := same_inst hk hr W hu0 (List.mem_map_of_mem hvm) du dv h2.symm
            obtain ⟨_, hnk, _⟩ := SchedProofs.flight_next hl hl' hf (by rw [f1]; exact hus)
            refine ⟨_, (pend_step h W.len _ _ _ _).2 ⟨b, ?_, rfl, .inl ?_⟩⟩
            · rw [← f2]; exact (alive_iff hfl).2 hnk
            · rw [show delay k m - (s.since v.id + 1) + 1 = delay k m - s.since v.id from by omega]; exact hb
    · have hd := List.mem_append_left (latIds s.sc.sp) (SchedProofs.fired_dis hl hfa)
      have hni : ¬ ∃ o ∈ issues k s c, o.uop.id = a.inst.ftq ∧ o.mop.inst.destEn = true := by
        rintro ⟨o, ho, e, _⟩
        obtain ⟨q, hq, _⟩ := issue_q I ho
        have := SchedProofs.rob_lt_dis hk hr (SchedProofs.queued_rob I hq) hd
        omega
      have hz : s.since a.inst.ftq = 0 := by
        cases hs : s.since a.inst.ftq with
        | zero => rfl
        | succ j =>
          exfalso
          obtain ⟨q, hq⟩ := W.out a.inst.ftq (by omega)
          have := (I.past q _ hq).2 _ hd
          omega
      have hno : a.inst.ftq ∉ s'.sc.out .int := by
        rw [hout .int]
        intro hx
        rcases List.mem_append.1 hx with hx | hx
        · have := (I.past .int _ hx).2 _ hd
          omega
        · obtain ⟨x, hx, e⟩ := List.mem_map.1 hx
          have := SchedProofs.rob_lt_dis hk hr (SchedProofs.queued_rob I (SchedProofs.issued_mem I hx).1) hd
          omega
      have hnr : a.inst.ftq ∉ robIds k.sc.sp s.sc.sp := fun hx => by
        have := SchedProofs.rob_lt_dis hk hr hx hd
        omega
      rw [hlater _ hni, if_pos hz, hann, decide_eq_false hnr]
      refine ⟨⟨fun hx => by omega, fun hx => absurd hx hno⟩, ?_, fun hx => by omega⟩
      simp

/-! ### Reachable states -/

theorem winv_init (k : Waker.Cfg) (hk : Good k.sc.sp) (bw : BranchWindow.Sys n) : WInv k (Waker.init n k) bw := by
  have hz : insts k.sc.sp.L (Waker.init n k).sc.sp.rob = [] := by
    have := Proofs.Rob.rinv_insts (Proofs.Rob.rinv_init (B := k.sc.sp.dis.banks) hk.lines)
    exact this
  refine ⟨?_, ?_, ?_, by simp [Waker.init], ?_, ?_, ?_⟩
  · intro u hu
    exfalso
    have hu : u ∈ (List.replicate k.sc.sp.dis.banks none).filterMap id := hu
    obtain ⟨o, ho, e⟩ := List.mem_filterMap.1 hu
    rw [(List.mem_replicate.1 ho).2] at e; cases e
  · intro u hu; unfold robIds at hu; rw [hz] at hu; cases hu
  · intro u hu; unfold robIds at hu; rw [hz] at hu; cases hu
  · intro u hu; exact absurd hu (by simp [Waker.init])
  · intro op p b r hp
    exfalso
    cases op with
    | mul =>
      obtain ⟨d, st, h1, ⟨e, he, _⟩, _⟩ := hp
      have h1 := (List.mem_replicate.1 (List.mem_of_getElem? h1)).2
      rw [h1] at he
      have := (List.mem_replicate.1 he).2; cases this
    | div => have := (List.mem_replicate.1 hp).2; cases this
    | fp => have := (List.mem_replicate.1 hp).2; cases this
    | _ => cases hp
  · intro u hu; unfold robIds at hu; rw [hz] at hu; cases hu

theorem reach (hk : Good k.sc.sp) (ha : Alu k) (h : Waker.Reach k s) : Sched.Reach k.sc s.sc ∧ Spine.Reach k.sc.sp s.sc.sp ∧
    ∃ bw rw Z g, Link k.sc.sp s.sc.sp bw rw Z g ∧ Inv k.sc s.sc bw ∧ WInv k s bw := by
  induction h with
  | init => exact ⟨.init, .init, _, _, _, _, link_init hk, SchedProofs.inv_init k.sc hk _, winv_init k hk _⟩
  | step c _ hv hs ih =>
    obtain ⟨h1, hr, bw, rw, Z, g, hl, I, W⟩ := ih
    obtain ⟨ws, hw, hst, _⟩ := step_some hs
    have hvs := sched_valid hk hr hv I W hw
    obtain ⟨Z', hl', _⟩ := link_step_valid hk hl hvs.hw
    refine ⟨.step _ h1 hvs hst, ?_, ?_⟩
    · rw [(SchedProofs.step_some hst).2.1]; exact .step _ hr hvs.hw
    · have W' := winv_step hk ha hr hl I W hv hs hw hl'
      refine ⟨_, _, Z', _, by rw [(SchedProofs.step_some hst).2.1]; exact hl', ?_, W'⟩
      refine ⟨fun q => .step _ (I.iqr q) (SchedProofs.iq_valid hk hr hl _ q) ((SchedProofs.step_some hst).1 q),
        SchedProofs.expect_step hk hr hl I hst, SchedProofs.table_step hk hr hl I hst,
        SchedProofs.once_step hk hr hl I hst hl', SchedProofs.past_step hk hr hl hvs I hst, fun q x hx => ?_⟩
      obtain ⟨y, hy, hn, rfl⟩ := SchedProofs.queue_from hk hr hl I hst hx
      rcases hy with hy | hy
      · exact SchedProofs.op_old hk hr hl hvs I hst hl' hy hn
      · exact SchedProofs.op_new hk hr hl hvs I hst hl' hy

end

end Verif.WakerProofs

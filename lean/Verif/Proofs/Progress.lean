import Verif.Spec.Progress
import Verif.Proofs.ProgressSrc
/-
No operation waits for a register that nobody is going to announce.
-/
namespace Verif.ProgressProofs
open Verif.Spine Verif.SpineProofs
open Verif.Decode (DecInst MicroOp Iq decompose decodeEntry)
open Verif.BranchWindow (Flight)
open Verif.RobQueue (insts sig)
open Verif.DispatchGroup (waiting fired)
open Verif.RenWindow (Entry lastWriter mapAfter entries)
open Verif.IssueWindow (queued hear)
open Verif.IssueQueue (Uop)
open Verif.Sched (hw dis iqIn part partBit reads feeds)
open Verif.SchedProofs (Inv step_some pkt inst_old inst_new)
open Verif.WakerProofs (Dst)
open Verif.Props (C106_ordered C106_conserved C106_squash C106_flush)

variable {n : Nat}

/-! ### The decoder -/

/-- An instruction with a data operation that takes the loaded value has a destination. -/
def Loads (d : DecInst) : Prop := ∀ m ∈ decompose d, m.src1FromDest = true → d.destEn = true

theorem loads_of {d : DecInst} (h : d.type = .amo → d.amoOp ≠ 2#7 → d.amoOp ≠ 3#7 → d.destEn = true) : Loads d := by
  intro m hm hf
  unfold decompose at hm
  cases ht : d.type <;> simp only [ht] at hm
  case amo =>
    by_cases h2 : d.amoOp = 2#7
    · rw [if_pos h2] at hm; simp at hm; rw [hm] at hf; cases hf
    · by_cases h3 : d.amoOp = 3#7
      · rw [if_neg h2, if_pos h3] at hm
        simp at hm
        rcases hm with rfl | rfl <;> cases hf
      · exact h ht h2 h3
  all_goals
    simp at hm
    first
      | (rw [hm] at hf; cases hf; done)
      | (rcases hm with rfl | rfl <;> cases hf)

/-- The operation that takes its first operand from the destination is the data operation of an atomic read-modify-write. -/
theorem std_of {d : DecInst} {m : MicroOp} (hm : m ∈ decompose d) (hf : m.src1FromDest = true) : m.iq = .std := by
  unfold decompose at hm
  cases ht : d.type <;> simp only [ht] at hm
  case amo =>
    split at hm
    · simp at hm; rw [hm] at hf; cases hf
    · split at hm
      · simp at hm; rcases hm with rfl | rfl <;> cases hf
      · simp at hm; rcases hm with rfl | rfl | rfl <;> first | rfl | cases hf
  all_goals
    simp at hm
    first
      | (rw [hm] at hf; cases hf; done)
      | (rcases hm with rfl | rfl <;> cases hf)

theorem finish_amo (d : DecInst) (h : d.type = .amo → d.destEn = true) (ht : (Decode.decodeFinish d).type = .amo)
    (h2 : (Decode.decodeFinish d).amoOp ≠ 2#7) (h3 : (Decode.decodeFinish d).amoOp ≠ 3#7) : (Decode.decodeFinish d).destEn = true := by
  have h1 := (WakerProofs.finish_dest d).1
  rw [h1] at ht
  have e : (Decode.decodeFinish d).amoOp = d.amoOp := by
    unfold Decode.decodeFinish Decode.DecInst.amoOp
    simp only
    split <;> split <;> rfl
  rw [e] at h2 h3
  have hd := h ht
  unfold Decode.DecInst.amoOp at h2 h3
  unfold Decode.decodeFinish Decode.DecInst.amoOp
  by_cases ha : d.destAreg = 0 <;> simp [ht, ha, h2, h3, hd]

theorem system_amo (w : BitVec 32) (d : DecInst) : (Decode.decodeSystem w d).type ≠ .amo := by
  unfold Decode.decodeSystem
  simp only
  repeat' split
  all_goals simp

theorem loads_decode (w : BitVec 32) (pf : Bool) : Loads (decodeEntry w pf) := by
  refine loads_of ?_
  cases pf with
  | true => intro h; simp [decodeEntry] at h
  | false =>
    have h : decodeEntry w false = Decode.decodeFinish (Decode.decodeOpcode w (Decode.decodeFields w)) := rfl
    rw [h]
    refine finish_amo _ ?_
    clear h
    unfold Decode.decodeOpcode
    split
    all_goals first
      | (intro hx; exact absurd hx (system_amo _ _))
      | (simp; done)
      | (simp only; intro hx; split at hx <;> (try split at hx) <;> cases hx)

theorem nodup_inj {α β : Type} (f : α → β) : ∀ {l : List α}, (l.map f).Nodup → ∀ {a b : α}, a ∈ l → b ∈ l → f a = f b → a = b
  | [], _, _, _, h, _, _ => by cases h
  | x :: l, hn, a, b, ha, hb, e => by
    rw [List.map_cons, List.nodup_cons] at hn
    rcases List.mem_cons.1 ha with h1 | h1 <;> rcases List.mem_cons.1 hb with h2 | h2
    · rw [h1, h2]
    · exact absurd (by rw [← h1, e]; exact List.mem_map_of_mem h2) hn.1
    · exact absurd (by rw [← h2, ← e]; exact List.mem_map_of_mem h1) hn.1
    · exact nodup_inj f hn.2 h1 h2 e

/-- An instruction has one operation for a queue. -/
theorem op_inj {d : DecInst} {m m' : MicroOp} (h : m ∈ decompose d) (h' : m' ∈ decompose d) (e : m.iq = m'.iq) : m = m' :=
  nodup_inj _ (Proofs.Dispatch.decompose_nodup d) h h' e

/-- Where the result of an instruction comes from. -/
theorem dest_from {d : DecInst} (hp : WakerProofs.Plain d) (hd : d.destEn = true) :
    d.type = .load ∨ d.type = .amo ∨ ∃ m, Waker.computes d m := by
  unfold WakerProofs.Plain at hp
  unfold Waker.computes decompose
  cases ht : d.type <;> simp_all

section
variable {k : Spine.Cfg} {s : St n} {c : Spine.Cyc n}
variable {bw : BranchWindow.Sys n} {rw : RenWindow.Sys} {Z : List (Flight n × Sig)} {g : Nat → BitVec 3}

/-- A committed register is not the destination of an instruction in flight. -/
theorem arch_free (hk : Good k) (h : Spine.Reach k s) {a : Nat} (ha : a < k.A) {u : Nat} (hu : u ∈ robIds k s ++ disIds s)
    (du : (s.info u).destEn = true) : (s.info u).preg ≠ s.regs.arch a := by
  have hp := (Props.C106_registers hk h).nodup_iff.2 List.nodup_range
  have hp := (List.nodup_append.1 (List.nodup_append.1 hp).2.1).2.2
  intro he
  refine hp _ (List.mem_map_of_mem (List.mem_range.2 ha)) _ (?_ : (s.info u).preg ∈ _) he.symm
  exact List.mem_map.2 ⟨s.info u, List.mem_filter.2 ⟨List.mem_map_of_mem hu, du⟩, rfl⟩

/-- Without an exception or interrupt no interrupt is requested when something retires. -/
theorem no_int (h : interrupt s c = false) {v : Rob.Uop} (hv : v ∈ retired s c) : c.intReq = false := by
  unfold interrupt at h
  unfold retired RobQueue.retired at hv
  rcases Proofs.Rob.arbitrate_cases (s.rob.rows s.rob.deq) (Rob.isEmpty s.rob) (robIn0 s c).mispred.isSome
    (robIn0 s c).frontStall (robIn0 s c).intReq (robIn0 s c).storePending with e | ⟨e, _, _, _, e5⟩ | ⟨b, u, int, e1, e2, _, e3, _⟩
  · change Rob.decision s.rob (robIn0 s c) = _ at e; rw [e] at hv; cases hv
  · change Rob.decision s.rob (robIn0 s c) = _ at e
    rw [e] at hv
    obtain ⟨o, ho, he⟩ := List.mem_filterMap.1 hv
    have he : o = some v := he
    subst he
    exact (e5 v ho).2
  · change Rob.decision s.rob (robIn0 s c) = _ at e1
    rw [e1] at h
    have h : int = false := h
    rw [h] at e3
    exact e3.symm

end

/-! ### The invariant -/

structure Quiet (k : Sched.Cfg) (s : Sched.State n) : Prop where
  src : ∀ u ∈ waiting s.sp.dis, Src k.sp s.sp u
  arch : ∀ a < k.sp.A, s.sp.dis.busy (s.sp.regs.arch a) = false
  told : ∀ j ∈ robIds k.sp s.sp, (s.inst j).dec.destEn = true → s.ann j = true → s.sp.dis.busy (s.inst j).destPreg = false
  wait : ∀ q, ∀ x ∈ queued (s.iq q), ∀ b, (x.src b).en = true → (x.src b).busy = true →
    ∃ m ∈ decompose (s.inst x.id).dec, m.iq = q ∧ ∃ j ∈ robIds k.sp s.sp, feeds s j x.id m b ∧ s.ann j = false

section
variable {k : Sched.Cfg} {s s' : Sched.State n} {c : Sched.Cyc n}
variable {bw : BranchWindow.Sys n} {rw : RenWindow.Sys} {Z : List (Flight n × Sig)} {g : Nat → BitVec 3}

/-- Everything that retires ordinarily has been announced. -/
def Told (k : Sched.Cfg) (s : Sched.State n) (c : Sched.Cyc n) : Prop :=
  ∀ v ∈ retired s.sp (hw k s c), ((retired s.sp (hw k s c)).any Rob.isExc || interrupt s.sp (hw k s c)) = false →
    (s.inst v.id).dec.destEn = true → s.ann v.id = true ∨ c.hw.wakes.contains (s.inst v.id).destPreg = true

theorem busy_step (k : Sched.Cfg) (s : Sched.State n) (c : Sched.Cyc n) (p : Nat) : (Spine.step k.sp s.sp (hw k s c)).dis.busy p =
    ((fired (dis k s c)).any (fun a => a.inst.dec.destEn && a.inst.destPreg == p) || (s.sp.dis.busy p && !c.hw.wakes.contains p)) :=
  congrArg (· || (s.sp.dis.busy p && !c.hw.wakes.contains p))
    (Proofs.Dispatch.fired_any k.sp.dis s.sp.dis (disIn k.sp s.sp (hw k s c)) p)

/-- The destination of what is being dispatched. -/
theorem fired_dst (hl : Link k.sp s.sp bw rw Z g) (hD : ∀ v ∈ waiting s.sp.dis, Dst s.sp v) {a : Dispatch.Alloc n}
    (ha : a ∈ fired (dis k s c)) : a.inst.ftq ∈ disIds s.sp ∧ (s.sp.info a.inst.ftq).preg = a.inst.destPreg ∧
      (s.sp.info a.inst.ftq).destEn = a.inst.dec.destEn := by
  obtain ⟨u, hu, e⟩ := SchedProofs.fired_wait hl ha
  obtain ⟨h1, h2⟩ := hD u hu
  rw [e]
  exact ⟨show u.ftq ∈ disIds s.sp from List.mem_map_of_mem hu, h1, h2⟩

theorem none_fired_rob (hk : Good k.sp) (hr : Spine.Reach k.sp s.sp) (hl : Link k.sp s.sp bw rw Z g)
    (hD : ∀ v ∈ waiting s.sp.dis, Dst s.sp v) (hR : ∀ u ∈ robIds k.sp s.sp, Dst s.sp (s.inst u) ∧ (s.inst u).ftq = u)
    {j : Nat} (hj : j ∈ robIds k.sp s.sp) (hd : (s.inst j).dec.destEn = true) :
    (fired (dis k s c)).any (fun a => a.inst.dec.destEn && a.inst.destPreg == (s.inst j).destPreg) = false := by
  rw [List.any_eq_false]
  intro a ha he
  simp only [Bool.and_eq_true, beq_iff_eq] at he
  obtain ⟨d1, d2, d3⟩ := fired_dst hl hD ha
  obtain ⟨⟨r1, r2⟩, r3⟩ := hR j hj
  rw [r3] at r1 r2
  have := WakerProofs.dest_inj hk hr (List.mem_append_left _ hj) (List.mem_append_right _ d1) (r2.trans hd) (d3.trans he.1)
    (by rw [r1, d2, he.2])
  have hlt := SchedProofs.rob_lt_dis hk hr hj (List.mem_append_left _ d1)
  omega

theorem ret_rob (hk : Good k.sp) (hl : Link k.sp s.sp bw rw Z g) {v : Rob.Uop} (hv : v ∈ retired s.sp (hw k s c)) :
    v ∈ insts k.sp.L s.sp.rob := by
  obtain ⟨_, _, rest, _, hins, _⟩ := hl.split hk (hw k s c)
  rw [hins]; exact List.mem_append_left _ hv

theorem told_step (hk : Good k.sp) (hr : Spine.Reach k.sp s.sp) (hl : Link k.sp s.sp bw rw Z g)
    (hD : ∀ v ∈ waiting s.sp.dis, Dst s.sp v) (hR : ∀ u ∈ robIds k.sp s.sp, Dst s.sp (s.inst u) ∧ (s.inst u).ftq = u)
    (Q : Quiet k s) (h : Sched.step k s c = some s') :
    ∀ j ∈ robIds k.sp s'.sp, (s'.inst j).dec.destEn = true → s'.ann j = true → s'.sp.dis.busy (s'.inst j).destPreg = false := by
  intro j _ hd ha
  rw [(step_some h).2.2.2.1 j, Bool.and_eq_true, decide_eq_true_eq] at ha
  obtain ⟨hj, ha⟩ := ha
  rw [inst_old h hl hk hr hj] at hd ⊢
  rw [(step_some h).2.1, busy_step, none_fired_rob hk hr hl hD hR hj hd, Bool.false_or]
  rw [Bool.or_eq_true] at ha
  rcases ha with ha | ha
  · rw [Q.told j hj hd ha]; rfl
  · rw [hd, Bool.true_and] at ha; rw [ha]; simp

theorem quiet_arch (hk : Good k.sp) (hr : Spine.Reach k.sp s.sp) (hl : Link k.sp s.sp bw rw Z g) (hv : Sched.Valid k s c)
    (hD : ∀ v ∈ waiting s.sp.dis, Dst s.sp v) (hR : ∀ u ∈ robIds k.sp s.sp, Dst s.sp (s.inst u) ∧ (s.inst u).ftq = u)
    (Q : Quiet k s) (hT : Told k s c) (h : Sched.step k s c = some s') :
    ∀ a < k.sp.A, s'.sp.dis.busy (s'.sp.regs.arch a) = false := by
  intro a ha
  rw [(step_some h).2.1, busy_step]
  have hold : ((fired (dis k s c)).any (fun x => x.inst.dec.destEn && x.inst.destPreg == s.sp.regs.arch a) ||
      (s.sp.dis.busy (s.sp.regs.arch a) && !c.hw.wakes.contains (s.sp.regs.arch a))) = false := by
    rw [Q.arch a ha, Bool.false_and, Bool.or_false, List.any_eq_false]
    intro x hx he
    simp only [Bool.and_eq_true, beq_iff_eq] at he
    obtain ⟨d1, d2, d3⟩ := fired_dst hl hD hx
    exact arch_free hk hr ha (List.mem_append_right _ d1) (d3.trans he.1) (by rw [d2, he.2])
  rw [arch_step hk hl hv.hw ha]
  split
  · exact hold
  · rename_i hne
    have hne : ((retired s.sp (hw k s c)).any Rob.isExc || interrupt s.sp (hw k s c)) = false := by simpa using hne
    unfold view
    cases hw' : lastWriter (((retired s.sp (hw k s c)).map (·.id)).map s.sp.info) a with
    | none => exact hold
    | some p =>
      obtain ⟨e, he, e1, _, e3⟩ := lw_mem hw'
      obtain ⟨j, hj, rfl⟩ := List.mem_map.1 he
      obtain ⟨v, hvm, rfl⟩ := List.mem_map.1 hj
      have hrob : v.id ∈ robIds k.sp s.sp := List.mem_map_of_mem (ret_rob hk hl hvm)
      obtain ⟨⟨r1, r2⟩, r3⟩ := hR v.id hrob
      rw [r3] at r1 r2
      rw [e1] at r2
      rw [Option.getD_some, ← e3, r1, none_fired_rob hk hr hl hD hR hrob r2.symm, Bool.false_or]
      rcases hT v hvm hne r2.symm with ht | ht
      · rw [Q.told _ hrob r2.symm ht]; rfl
      · rw [ht]; simp

/-- A producer whose result has not been announced stays as long as something younger. -/
theorem keeps (hk : Good k.sp) (hr : Spine.Reach k.sp s.sp) (hl : Link k.sp s.sp bw rw Z g) (hv : Sched.Valid k s c) (hT : Told k s c)
    {j w : Nat} (hj : j ∈ robIds k.sp s.sp) (hd : (s.inst j).dec.destEn = true) (hna : s.ann j = false)
    (hnw : c.hw.wakes.contains (s.inst j).destPreg = false) (hw' : w ∈ robIds k.sp (Spine.step k.sp s.sp (hw k s c))) (hle : j ≤ w) :
    j ∈ robIds k.sp (Spine.step k.sp s.sp (hw k s c)) := by
  have hr' : Spine.Reach k.sp (Spine.step k.sp s.sp (hw k s c)) := .step _ hr hv.hw
  have hwi : w ∈ inflight k.sp (Spine.step k.sp s.sp (hw k s c)) := by
    unfold inflight; rw [List.append_assoc]; exact List.mem_append_left _ hw'
  have hji : j ∈ inflight k.sp s.sp := by unfold inflight; rw [List.append_assoc]; exact List.mem_append_left _ hj
  have key : j ∈ inflight k.sp (Spine.step k.sp s.sp (hw k s c)) := by
    cases hf : flush s.sp (hw k s c) with
    | true => rw [C106_flush hk hr hv.hw hf] at hwi; cases hwi
    | false =>
    cases hm : s.sp.idu.latch.mispred with
    | true =>
      obtain ⟨b, _, _, _, _, _, _, hin⟩ := C106_squash hk hr hv.hw hm
      rw [hin] at hwi ⊢
      have := (List.mem_filter.1 hwi).2
      simp only [decide_eq_true_eq] at this
      exact List.mem_filter.2 ⟨hji, by simp; omega⟩
    | false =>
      have hc := C106_conserved hk hr hv.hw hf hm
      have : j ∈ (retired s.sp (hw k s c)).map (·.id) ++ inflight k.sp (Spine.step k.sp s.sp (hw k s c)) := by
        rw [hc]; exact List.mem_append_left _ hji
      rcases List.mem_append.1 this with h | h
      · exfalso
        obtain ⟨v, hvm, rfl⟩ := List.mem_map.1 h
        have hne : ((retired s.sp (hw k s c)).any Rob.isExc || interrupt s.sp (hw k s c)) = false := by
          cases hx : ((retired s.sp (hw k s c)).any Rob.isExc || interrupt s.sp (hw k s c)) with
          | false => rfl
          | true =>
            rw [Bool.or_eq_true] at hx
            rw [(exc_facts hk hl _).2 hx] at hf; cases hf
        rcases hT v hvm hne hd with ht | ht
        · rw [hna] at ht; cases ht
        · rw [hnw] at ht; cases ht
      · exact h
  unfold inflight at key
  rw [List.append_assoc] at key
  rcases List.mem_append.1 key with h | h
  · exact h
  · have := SchedProofs.rob_lt_dis hk hr' hw' h
    omega

theorem fired_rob (hk : Good k.sp) (hl : Link k.sp s.sp bw rw Z g) {a : Dispatch.Alloc n} (ha : a ∈ fired (dis k s c)) :
    a.inst.ftq ∈ robIds k.sp (Spine.step k.sp s.sp (hw k s c)) := by
  obtain ⟨hf, hmi⟩ := SchedProofs.fired_quiet ha
  have hsig : sig (toUop a) ∈ (insts k.sp.L (Spine.step k.sp s.sp (hw k s c)).rob).map sig := by
    obtain ⟨_, _, rest, _, _, _, _, _, hs⟩ := hl.split hk (hw k s c)
    rw [hs, hf, if_neg (by simp), hmi, if_neg (by simp)]
    exact List.mem_append_right _ (List.mem_map.2 ⟨a, ha, rfl⟩)
  obtain ⟨v, hvm, hsv⟩ := List.mem_map.1 hsig
  have v1 : v.id = a.inst.ftq := congrArg Prod.fst hsv
  rw [← v1]; exact List.mem_map_of_mem hvm

theorem fired_ann (hk : Good k.sp) (hr : Spine.Reach k.sp s.sp) (hl : Link k.sp s.sp bw rw Z g) (h : Sched.step k s c = some s')
    {a : Dispatch.Alloc n} (ha : a ∈ fired (dis k s c)) : s'.ann a.inst.ftq = false := by
  rw [(step_some h).2.2.2.1, Bool.and_eq_false_iff]
  left
  rw [decide_eq_false_iff_not]
  intro hm
  have := SchedProofs.rob_lt_dis hk hr hm (List.mem_append_left _ (SchedProofs.fired_dis hl ha))
  omega

/-- What a source of an instruction being dispatched waits for. -/
theorem source (hk : Good k.sp) (hr : Spine.Reach k.sp s.sp) (hl : Link k.sp s.sp bw rw Z g) (hv : Sched.Valid k s c)
    (hD : ∀ v ∈ waiting s.sp.dis, Dst s.sp v) (hR : ∀ u ∈ robIds k.sp s.sp, Dst s.sp (s.inst u) ∧ (s.inst u).ftq = u)
    (Q : Quiet k s) (hT : Told k s c) (h : Sched.step k s c = some s')
    {pre post : List (Dispatch.Alloc n)} {a : Dispatch.Alloc n} (e : fired (dis k s c) = pre ++ a :: post) {p r : Nat} (hra : r < k.sp.A)
    (hp : p = view s.sp (older k.sp s.sp a.inst.ftq) r)
    (hb : ((s.sp.dis.busy p && !c.hw.wakes.contains p) || pre.any fun b => b.inst.dec.destEn && b.inst.destPreg == p) = true) :
    ∃ j ∈ robIds k.sp (Spine.step k.sp s.sp (hw k s c)), j < a.inst.ftq ∧ (s'.inst j).dec.destEn = true ∧ (s'.inst j).destPreg = p ∧
      s'.ann j = false := by
  have ha : a ∈ fired (dis k s c) := by rw [e]; simp
  have hs := SchedProofs.fired_sorted (c := hw k s c) hk hr hl
  have hs' : ((pre ++ a :: post).map (·.inst.ftq)).Pairwise (· < ·) := by rw [← e]; exact hs
  rw [List.map_append, List.map_cons, List.pairwise_append, List.pairwise_cons] at hs'
  have early : ∀ b ∈ pre, b.inst.dec.destEn = true → b.inst.destPreg = p →
      ∃ j ∈ robIds k.sp (Spine.step k.sp s.sp (hw k s c)), j < a.inst.ftq ∧ (s'.inst j).dec.destEn = true ∧
        (s'.inst j).destPreg = p ∧ s'.ann j = false := by
    intro b hbm b1 b2
    have hbf : b ∈ fired (dis k s c) := by rw [e]; exact List.mem_append_left _ hbm
    refine ⟨b.inst.ftq, fired_rob hk hl hbf, hs'.2.2 _ (List.mem_map_of_mem (f := fun x : Dispatch.Alloc n => x.inst.ftq) hbm) _
      List.mem_cons_self, ?_, ?_, fired_ann hk hr hl h hbf⟩
    · rw [inst_new h hl hk hr hbf]; exact b1
    · rw [inst_new h hl hk hr hbf]; exact b2
  rw [Bool.or_eq_true] at hb
  rcases hb with hb | hb
  · rw [Bool.and_eq_true, Bool.not_eq_true'] at hb
    unfold view at hp
    cases hw' : lastWriter ((older k.sp s.sp a.inst.ftq).map s.sp.info) r with
    | none =>
      rw [hw', Option.getD_none] at hp
      rw [hp, Q.arch r hra] at hb
      cases hb.1
    | some p' =>
      rw [hw', Option.getD_some] at hp
      subst hp
      obtain ⟨en, he, e1, _, e3⟩ := lw_mem hw'
      obtain ⟨j, hj, rfl⟩ := List.mem_map.1 he
      obtain ⟨hji, hlt⟩ := List.mem_filter.1 hj
      have hlt : j < a.inst.ftq := by simpa using hlt
      unfold inflight at hji
      rcases List.mem_append.1 hji with hji | hji
      · rcases List.mem_append.1 hji with hjr | hjd
        · obtain ⟨⟨r1, r2⟩, r3⟩ := hR j hjr
          rw [r3] at r1 r2
          rw [e1] at r2
          rw [e3] at r1
          have hna : s.ann j = false := by
            cases hx : s.ann j with
            | false => rfl
            | true =>
              have := Q.told j hjr r2.symm hx
              rw [← r1, hb.1] at this; cases this
          have hnw : c.hw.wakes.contains (s.inst j).destPreg = false := by rw [← r1]; exact hb.2
          refine ⟨j, keeps hk hr hl hv hT hjr r2.symm hna hnw (fired_rob hk hl ha) (Nat.le_of_lt hlt), hlt, ?_, ?_, ?_⟩
          · rw [inst_old h hl hk hr hjr]; exact r2.symm
          · rw [inst_old h hl hk hr hjr]; exact r1.symm
          · rw [(step_some h).2.2.2.1 j, hna, hnw]; simp
        · obtain ⟨v, hvm, rfl⟩ := List.mem_map.1 hjd
          obtain ⟨d1, d2⟩ := hD v hvm
          obtain ⟨rs, hrs⟩ := Props.C24_in_order hl.dr (disIn k.sp s.sp (hw k s c))
          have hmem : Dispatch.scrub (disIn k.sp s.sp (hw k s c)) v ∈ (fired (dis k s c)).map (·.inst) ++ rs := by
            rw [show fired (dis k s c) = fired (Dispatch.comb k.sp.dis s.sp.dis (disIn k.sp s.sp (hw k s c))) from rfl, hrs]
            exact List.mem_map_of_mem hvm
          have hord : (((fired (dis k s c)).map (·.inst) ++ rs).map (·.ftq)).Pairwise (· < ·) := by
            rw [show fired (dis k s c) = fired (Dispatch.comb k.sp.dis s.sp.dis (disIn k.sp s.sp (hw k s c))) from rfl, hrs, List.map_map]
            have ho := (C106_ordered hk hr).1
            unfold inflight at ho
            rw [List.pairwise_append, List.pairwise_append] at ho
            exact ho.1.2.1
          have heq : (fired (dis k s c)).map (·.inst) ++ rs = pre.map (·.inst) ++ a.inst :: (post.map (·.inst) ++ rs) := by rw [e]; simp
          rw [heq] at hmem hord
          rw [List.map_append, List.map_cons, List.pairwise_append, List.pairwise_cons] at hord
          rcases List.mem_append.1 hmem with hm | hm
          · obtain ⟨b, hbm, hbe⟩ := List.mem_map.1 hm
            refine early b hbm ?_ ?_
            · rw [hbe]; exact d2.symm.trans e1
            · rw [hbe]; exact d1.symm.trans e3
          · exfalso
            have hv1 : (Dispatch.scrub (disIn k.sp s.sp (hw k s c)) v).ftq = v.ftq := rfl
            rcases List.mem_cons.1 hm with hm | hm
            · rw [← hm, hv1] at hlt; omega
            · have := hord.2.1.1 _ (List.mem_map_of_mem (f := fun x : Dispatch.Inst n => x.ftq) hm)
              rw [hv1] at this; omega
      · exfalso
        have ho := (C106_ordered hk hr).1
        unfold inflight at ho
        rw [List.pairwise_append] at ho
        have := ho.2.2 a.inst.ftq (List.mem_append_right _ (SchedProofs.fired_dis hl ha)) j hji
        omega
  · obtain ⟨b, hbm, hb⟩ := List.any_eq_true.1 hb
    simp only [Bool.and_eq_true, beq_iff_eq] at hb
    exact early b hbm hb.1 hb.2

theorem wait_old (hk : Good k.sp) (hr : Spine.Reach k.sp s.sp) (hl : Link k.sp s.sp bw rw Z g) (hv : Sched.Valid k s c) (I : Inv k s bw)
    (Q : Quiet k s) (hT : Told k s c) (h : Sched.step k s c = some s') {q : Iq} {y : Uop n} (hy : y ∈ queued (s.iq q))
    (hrob : y.id ∈ robIds k.sp s'.sp) {b : Bool} (hen : (y.src b).en = true)
    (hb : ((y.src b).busy && !((y.src b).en && c.hw.wakes.contains (y.src b).preg)) = true) :
    ∃ m ∈ decompose (s'.inst y.id).dec, m.iq = q ∧ ∃ j ∈ robIds k.sp s'.sp, feeds s' j y.id m b ∧ s'.ann j = false := by
  rw [hen, Bool.true_and, Bool.and_eq_true, Bool.not_eq_true'] at hb
  obtain ⟨m, hm, hq, j, hj, hf, hna⟩ := Q.wait q y hy b hen hb.1
  have hyr := SchedProofs.queued_rob I hy
  have hi := inst_old h hl hk hr hyr
  obtain ⟨m', hm', hq', _, hreads, _⟩ := (I.ops q y hy).op
  have hmm : m' = m := by
    exact op_inj hm' hm (hq'.trans hq.symm)
  subst hmm
  have hpreg : (y.src b).preg = (s.inst j).destPreg := (SchedProofs.reads_src (hreads b) hf.2.1).2
  have hnw : c.hw.wakes.contains (s.inst j).destPreg = false := by rw [← hpreg]; exact hb.2
  have hle : j ≤ y.id := by
    have := hf.2.2
    split at this
    · exact Nat.le_of_eq this.1
    · exact Nat.le_of_lt this
  rw [(step_some h).2.1] at hrob
  have hjk := keeps hk hr hl hv hT hj hf.1 hna hnw hrob hle
  have hij := inst_old h hl hk hr hj
  refine ⟨m', by rw [hi]; exact hm, hq, j, by rw [(step_some h).2.1]; exact hjk, ?_, ?_⟩
  · unfold feeds
    rw [hi, hij]; exact hf
  · rw [(step_some h).2.2.2.1 j, hna, hnw]; simp

theorem wait_new (hk : Good k.sp) (hr : Spine.Reach k.sp s.sp) (hl : Link k.sp s.sp bw rw Z g) (hv : Sched.Valid k s c)
    (hD : ∀ v ∈ waiting s.sp.dis, Dst s.sp v) (hR : ∀ u ∈ robIds k.sp s.sp, Dst s.sp (s.inst u) ∧ (s.inst u).ftq = u)
    (Q : Quiet k s) (hT : Told k s c) (h : Sched.step k s c = some s') {q : Iq} {y : Uop n} (hy : y ∈ (iqIn k s c q).enq) {b : Bool}
    (hen : (y.src b).en = true) (hb : (y.src b).busy = true) :
    ∃ m ∈ decompose (s'.inst y.id).dec, m.iq = q ∧ ∃ j ∈ robIds k.sp s'.sp, feeds s' j y.id m b ∧ s'.ann j = false := by
  obtain ⟨a, ha, m, hm, m1, rfl⟩ := (SchedProofs.mem_enq hl).1 hy
  have hi := inst_new h hl hk hr ha
  obtain ⟨u, hu, hua⟩ := SchedProofs.fired_wait hl ha
  have hsound : SchedProofs.Sound a.inst.dec := by
    rw [hua]; exact (SchedProofs.decd_reach SchedProofs.Sound SchedProofs.sound_decode hk hr).dis u hu
  have hlow : Low a.inst.dec := by rw [hua]; exact (SchedProofs.decd_reach Low low_decode hk hr).dis u hu
  have hlds : Loads a.inst.dec := by rw [hua]; exact (SchedProofs.decd_reach Loads loads_decode hk hr).dis u hu
  obtain ⟨s1, s2⟩ := Q.src u hu
  have s1 : a.inst.src1Preg = view s.sp (older k.sp s.sp a.inst.ftq) a.inst.dec.src1Areg := by rw [hua]; exact s1
  have s2 : a.inst.src2Preg = view s.sp (older k.sp s.sp a.inst.ftq) a.inst.dec.src2Areg := by rw [hua]; exact s2
  have hreg := hk.regs
  obtain ⟨pre, post, hpp⟩ := List.append_of_mem ha
  obtain ⟨b1, b2⟩ := Proofs.Dispatch.fired_busy (Proofs.Dispatch.wf_reach hl.dr) (Proofs.Dispatch.noX0_reach hl.dr)
    (disIn k.sp s.sp (hw k s c)) hpp
  have hfo := Proofs.Dispatch.forced_iff a.inst.dec m hm
  refine ⟨m, by show m ∈ decompose (s'.inst a.inst.ftq).dec; rw [hi]; exact hm, m1, ?_⟩
  rw [(step_some h).2.1]
  by_cases hcase : m.src1FromDest = true ∧ b = false
  · obtain ⟨hc1, rfl⟩ := hcase
    have hb : m.src1BusyForced.getD a.src1Busy = true := hb
    have hen : m.inst.src1En = true := hen
    rw [(hfo.2 hc1).1] at hb
    refine ⟨a.inst.ftq, fired_rob hk hl ha, ⟨?_, ?_, ?_⟩, fired_ann hk hr hl h ha⟩
    · rw [hi]; exact hlds m hm hc1
    · show reads (s'.inst a.inst.ftq) m false = some _
      rw [hi]; unfold reads; simp [hen, hc1]
    · rw [if_pos ⟨hc1, rfl⟩]
      refine ⟨rfl, ?_⟩
      show (s'.inst a.inst.ftq).dec.amoOp ≠ 1#7
      rw [hi]; simpa using hb
  · have key : ∃ p r, reads a.inst m b = some p ∧ r < k.sp.A ∧ p = view s.sp (older k.sp s.sp a.inst.ftq) r ∧
        ((s.sp.dis.busy p && !c.hw.wakes.contains p) || pre.any fun b => b.inst.dec.destEn && b.inst.destPreg == p) = true := by
      cases b with
      | true =>
        have hen : m.inst.src2En = true := hen
        have hb : a.src2Busy = true := hb
        rw [b2, (hsound m hm).2 hen, Bool.true_and] at hb
        exact ⟨_, _, by unfold reads; simp [hen], by have := hlow.2; omega, s2, hb⟩
      | false =>
        have hnd : m.src1FromDest = false := by cases hx : m.src1FromDest <;> simp [hx] at hcase ⊢
        have hen : m.inst.src1En = true := hen
        have hb : m.src1BusyForced.getD a.src1Busy = true := hb
        rw [hfo.1.2 hnd] at hb
        have hb : a.src1Busy = true := hb
        rw [b1, (hsound m hm).1 hen, Bool.true_and] at hb
        exact ⟨_, _, by unfold reads; simp [hen, hnd], by have := hlow.1; omega, s1, hb⟩
    obtain ⟨p, r, k1, k2, k3, k4⟩ := key
    obtain ⟨j, hj, j1, j2, j3, j4⟩ := source hk hr hl hv hD hR Q hT h hpp k2 k3 k4
    refine ⟨j, hj, ⟨j2, ?_, ?_⟩, j4⟩
    · show reads (s'.inst a.inst.ftq) m b = some _
      rw [hi, k1, j3]
    · rw [if_neg hcase]; exact j1

theorem quiet_step (hk : Good k.sp) (hr : Spine.Reach k.sp s.sp) (hl : Link k.sp s.sp bw rw Z g) (hv : Sched.Valid k s c) (I : Inv k s bw)
    (hD : ∀ v ∈ waiting s.sp.dis, Dst s.sp v) (hR : ∀ u ∈ robIds k.sp s.sp, Dst s.sp (s.inst u) ∧ (s.inst u).ftq = u)
    (Q : Quiet k s) (hT : Told k s c) (h : Sched.step k s c = some s')
    (hq : ∀ q, ∀ x ∈ queued (s'.iq q), x.id ∈ robIds k.sp s'.sp) : Quiet k s' := by
  refine ⟨?_, quiet_arch hk hr hl hv hD hR Q hT h, told_step hk hr hl hD hR Q h, fun q x hx b hen hb => ?_⟩
  · rw [(step_some h).2.1]; exact src_step hk hr hv.hw Q.src
  · have hxr := hq q x hx
    obtain ⟨y, hy, _, rfl⟩ := SchedProofs.queue_from hk hr hl I h hx
    rcases hy with hy | hy
    · exact wait_old hk hr hl hv I Q hT h hy hxr hen hb
    · have hb : ((y.src b).busy && !((y.src b).en && c.hw.wakes.contains (y.src b).preg)) = true := hb
      rw [Bool.and_eq_true] at hb
      exact wait_new hk hr hl hv hD hR Q hT h hy hen hb.1

theorem quiet_init (k : Sched.Cfg) (hk : Good k.sp) : Quiet k (Sched.init n k) := by
  have hz : insts k.sp.L (Sched.init n k).sp.rob = [] := by
    have := Proofs.Rob.rinv_insts (Proofs.Rob.rinv_init (B := k.sp.dis.banks) hk.lines)
    exact this
  refine ⟨fun u hu => ?_, fun a _ => rfl, fun j hj => ?_, fun q x hx => ?_⟩
  · exfalso
    have hu : u ∈ (List.replicate k.sp.dis.banks none).filterMap id := hu
    obtain ⟨o, ho, he⟩ := List.mem_filterMap.1 hu
    rw [List.eq_of_mem_replicate ho] at he; cases he
  · exfalso
    unfold robIds at hj
    rw [hz] at hj; cases hj
  · exfalso
    have hx : x ∈ (List.replicate (k.size q) none).filterMap id := hx
    obtain ⟨o, ho, he⟩ := List.mem_filterMap.1 hx
    rw [List.eq_of_mem_replicate ho] at he; cases he

end

/-! ### Runs -/

section
variable {k : Waker.Cfg} {s s' : Waker.State n} {c : Waker.Cyc n}

theorem told_of {bw : BranchWindow.Sys n} {rw : RenWindow.Sys} {Z : List (Flight n × Sig)} {g : Nat → BitVec 3} {ws : List Nat}
    (hk : Good k.sc.sp) (hr : Spine.Reach k.sc.sp s.sc.sp) (hl : Link k.sc.sp s.sc.sp bw rw Z g)
    (I : Inv k.sc s.sc bw) (W : WakerProofs.WInv k s bw) (hv : Progress.Valid k s c) (hw' : Waker.wakes k s c = some ws) :
    Told k.sc s.sc (Waker.cyc c ws) := by
  intro v hvm hne hd
  rw [Bool.or_eq_false_iff] at hne
  have hint := no_int hne.2 hvm
  have hexc : Rob.isExc v = false := by
    cases hx : Rob.isExc v with
    | false => rfl
    | true =>
      have := List.any_eq_false.1 hne.1 v hvm
      rw [hx] at this; exact absurd rfl this
  have hin := ret_rob hk hl hvm
  have hrob : v.id ∈ robIds k.sc.sp s.sc.sp := List.mem_map_of_mem hin
  have mem : (s.sc.inst v.id).dec.type = .load ∨ (s.sc.inst v.id).dec.type = .amo →
      s.sc.ann v.id = true ∨ (Waker.cyc c ws).hw.wakes.contains (s.sc.inst v.id).destPreg = true := by
    intro ht
    rcases hv.told v hvm hint hexc hd ht with h | h
    · exact .inl h
    · right
      show ws.contains _ = true
      rw [List.contains_iff_mem, WakerProofs.wakes_mem hw']
      exact .inl h
  rcases dest_from (W.plain v.id hrob) hd with ht | ht | ⟨m, hm⟩
  · exact mem (.inl ht)
  · exact mem (.inr ht)
  · left
    obtain ⟨a1, a2, a3⟩ := W.ann v.id hrob m hm
    rw [a2]
    obtain ⟨Wn, hW⟩ := Proofs.Rob.rinv_reach hk.lines hl.qr
    have hc : Rob.complete v = true := by
      rcases Proofs.Rob.retire_cases hW (robIn0 s.sc.sp (hw k.sc s.sc (Waker.cyc c ws))) with e | e | ⟨u, r, e1, _, e3, _⟩
      · have : v ∈ ([] : List Rob.Uop) := e.1 ▸ hvm
        cases this
      · exact (e.2.2.2.1 v hvm).1
      · have hr' : v ∈ [u] := e1 ▸ hvm
        rw [List.mem_singleton.1 hr']
        exact e3 hint
    have hc : v.cplt = v.expect := by unfold Rob.complete at hc; simpa using hc
    have hbit : v.cplt &&& partBit (s.sc.inst v.id).dec .int ≠ 0#3 := by
      rw [hc, I.expect v hin, ← hm.2.2]
      exact (SchedProofs.part_bit _ m hm.1).2
    refine Decidable.byContradiction fun hle => ?_
    rcases Nat.eq_zero_or_pos (s.since v.id) with h0 | h0
    · -- still in its queue
      have hno : v.id ∉ s.sc.out .int := fun h => by have := a1.2 h; omega
      have hone := I.once v.id hrob .int
      rw [List.count_eq_zero.2 hno] at hone
      have hsome : (part s.sc v.id .int).isSome = true := by
        unfold part
        rw [List.find?_isSome]
        exact ⟨m, hm.1, by simp [hm.2.2]⟩
      rw [if_pos hsome] at hone
      have hmem : v.id ∈ (queued (s.sc.iq .int)).map (·.id) := by
        rw [← List.count_pos_iff]; omega
      obtain ⟨x, hx, hxe⟩ := List.mem_map.1 hmem
      obtain ⟨v', hv', e1, _, _, e4⟩ := (I.ops .int x hx).mem
      have := SchedProofs.id_inj hk hr hv' hin (e1.trans hxe)
      subst this
      rw [hxe] at e4
      exact hbit e4
    · obtain ⟨b, hp⟩ := a3 h0 (by omega)
      obtain ⟨v', hv', m', hm', _, e2, e3, _⟩ := W.pend _ _ _ _ hp
      have du : (s.sc.inst v'.id).dec.destEn = true := by rw [← (WakerProofs.int_op hm'.1 hm'.2.2).1]; exact hm'.2.1
      have hid := WakerProofs.same_inst hk hr W (List.mem_map_of_mem hv') hrob du hd e2
      have := SchedProofs.id_inj hk hr hv' hin hid
      subst this
      exact hbit e3

theorem base (h : Progress.Reach k s) : Waker.Reach k s := by
  induction h with
  | init => exact .init
  | step c _ hv hs ih => exact .step c ih hv.base hs

theorem reach (hk : Good k.sc.sp) (ha : Waker.Alu k) (h : Progress.Reach k s) : Quiet k.sc s.sc := by
  induction h with
  | init => exact quiet_init k.sc hk
  | step c hpr hv hs ih =>
    obtain ⟨h1, hr, bw, rw, Z, g, hl, I, W⟩ := WakerProofs.reach hk ha (base hpr)
    obtain ⟨ws, hw', hst, _⟩ := WakerProofs.step_some hs
    have hvs := WakerProofs.sched_valid hk hr hv.base I W hw'
    obtain ⟨_, bw', _, _, _, _, I'⟩ := SchedProofs.inv_reach hk (Sched.Reach.step _ h1 hvs hst)
    exact quiet_step hk hr hl hvs I W.dis W.rob ih (told_of hk hr hl I W hv hw') hst fun q x hx => SchedProofs.queued_rob I' hx

end

end Verif.ProgressProofs

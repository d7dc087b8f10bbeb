import Verif.Spec.TopDown
import Verif.Proofs.FullCpuLib
import Verif.Props.Spine
/- The top-down counters. -/
namespace Verif.TopDownProofs
open Verif.TopDown Verif.Spine Verif.SpineProofs
open Verif.RobQueue (insts)
open Verif.Decode (decodeEntry)

/-- Each level adds up to the one above. -/
structure Sums (p : Perf) : Prop where
  backend : p.backend = p.memLsu + p.coreIq + p.coreRob
  mem : p.memLsu = p.l1 + p.ext
  full : p.ldqFull + p.stqFull ≤ p.l1
  frontend : p.frontend = p.recMispred + p.recFlush + p.pure
  pure : p.pure = p.fetchLat + p.fetchBw
  waste : p.waste = p.recMispred + p.recFlush
  mispred : p.mispredTotal = p.pendMispred + p.recMispred
  flush : p.flushTotal = p.pendFlush + p.recFlush
  mispredOf : p.mispredTotal = p.mispredRen + p.mispredDis
  flushOf : p.flushTotal = p.flushRen + p.flushDis

/-- Slots accounted for. -/
def all (p : Perf) : Nat := p.issued + p.backend + p.frontend

theorem why_full (x : Slot) : ¬ ((why x).ldq = true ∧ (why x).stq = true) := by
  unfold why
  (repeat' split) <;> simp

theorem slot_sums {p : Perf} (h : Sums p) (x : Slot) : Sums (slot p x) := by
  obtain ⟨h1, h2, h3, h4, h5, h6, h7, h8, h9, h10⟩ := h
  have hw := why_full x
  unfold slot
  simp only
  (repeat' split) <;> first
    | (exfalso; exact hw ⟨by assumption, by assumption⟩)
    | (constructor <;> simp only <;> omega)

theorem slot_all (p : Perf) (x : Slot) : all (slot p x) = all p + 1 ∧ (slot p x).issued = p.issued + (if x.fire then 1 else 0) ∧
    (slot p x).commits = p.commits ∧ (slot p x).cycle = p.cycle ∧ (slot p x).avail = p.avail ∧ (slot p x).consumed = p.consumed := by
  unfold slot all
  simp only
  (repeat' split) <;> refine ⟨?_, ?_, rfl, rfl, rfl, rfl⟩ <;> simp only <;> omega

theorem slots_all : ∀ (l : List Slot) (p : Perf), all (l.foldl slot p) = all p + l.length ∧
    (l.foldl slot p).issued = p.issued + (l.filter (·.fire)).length ∧
    (l.foldl slot p).commits = p.commits ∧ (l.foldl slot p).cycle = p.cycle ∧ (l.foldl slot p).avail = p.avail ∧
    (l.foldl slot p).consumed = p.consumed
  | [], p => ⟨rfl, rfl, rfl, rfl, rfl, rfl⟩
  | x :: l, p => by
    obtain ⟨a1, a2, a3, a4, a5, a6⟩ := slot_all p x
    obtain ⟨b1, b2, b3, b4, b5, b6⟩ := slots_all l (slot p x)
    rw [List.foldl_cons]
    refine ⟨by rw [b1, a1, List.length_cons]; omega, ?_, b3.trans a3, b4.trans a4, b5.trans a5, b6.trans a6⟩
    rw [b2, a2, List.filter_cons]
    split <;> simp <;> omega

theorem slots_sums : ∀ (l : List Slot) {p : Perf}, Sums p → Sums (l.foldl slot p)
  | [], _, h => h
  | x :: l, _, h => slots_sums l (slot_sums h x)

theorem commit_sums (c : Ckpt) {p : Perf} (h : Sums p) : Sums (commit c p) := by
  unfold commit
  simp only
  split
  · constructor <;> decide
  · exact ⟨h.1, h.2, h.3, h.4, h.5, h.6, h.7, h.8, h.9, h.10⟩

theorem commits_sums (c : Ckpt) : ∀ (l : List Nat) {p : Perf}, Sums p → Sums (l.foldl (fun p _ => commit c p) p)
  | [], _, h => h
  | _ :: l, _, h => commits_sums c l (commit_sums c h)

theorem killDis_sums {p : Perf} (h : Sums p) (f m : Bool) (j : Nat) : Sums (killDis p f m j) := by
  obtain ⟨h1, h2, h3, h4, h5, h6, h7, h8, h9, h10⟩ := h
  unfold killDis
  (repeat' split) <;> constructor <;> first | assumption | (dsimp only; omega)

theorem killRen_sums {p : Perf} (h : Sums p) (f m : Bool) (j : Nat) : Sums (killRen p f m j) := by
  obtain ⟨h1, h2, h3, h4, h5, h6, h7, h8, h9, h10⟩ := h
  unfold killRen
  (repeat' split) <;> constructor <;> first | assumption | (dsimp only; omega)

theorem tick_sums {p : Perf} (h : Sums p) (a : Nat) : Sums { p with cycle := p.cycle + 1, avail := p.avail + a } :=
  ⟨h.1, h.2, h.3, h.4, h.5, h.6, h.7, h.8, h.9, h.10⟩

theorem taken_sums {p : Perf} (h : Sums p) (a : Nat) : Sums { p with consumed := p.consumed + a } :=
  ⟨h.1, h.2, h.3, h.4, h.5, h.6, h.7, h.8, h.9, h.10⟩

theorem cycle_sums (c : Ckpt) {p : Perf} (h : Sums p) (a : Nat) (l : List Slot) (j b : Nat) (f m : Bool) (d r : Nat) : Sums (cycle c p a l j b f m d r) :=
  killRen_sums (killDis_sums (taken_sums (commits_sums c _ (slots_sums l (tick_sums h a))) b) ..) ..

theorem kill_rest (p : Perf) (f m : Bool) (d r : Nat) : all (killRen (killDis p f m d) f m r) = all p ∧
    (killRen (killDis p f m d) f m r).issued = p.issued ∧ (killRen (killDis p f m d) f m r).commits = p.commits ∧
    (killRen (killDis p f m d) f m r).cycle = p.cycle ∧ (killRen (killDis p f m d) f m r).avail = p.avail ∧
    (killRen (killDis p f m d) f m r).consumed = p.consumed := by
  unfold killRen killDis
  (repeat' split) <;> exact ⟨rfl, rfl, rfl, rfl, rfl, rfl⟩

/-- Without a checkpoint nothing is reset. -/
theorem commits_off {c : Ckpt} (hc : c.on = false) : ∀ (l : List Nat) (p : Perf),
    l.foldl (fun p _ => commit c p) p = { p with commits := p.commits + l.length }
  | [], p => rfl
  | x :: l, p => by
    rw [List.foldl_cons, commits_off hc l]
    unfold commit
    simp only [hc, Bool.false_and, Bool.false_eq_true, if_false, List.length_cons]
    congr 1
    omega

/-- With one, the instructions counted grow by at most the number retired; a reset leaves fewer than that. -/
theorem commits_le (c : Ckpt) : ∀ (l : List Nat) (p : Perf), let p' := l.foldl (fun p _ => commit c p) p
    (p'.issued = p.issued ∧ p'.commits = p.commits + l.length) ∨ p'.commits ≤ l.length
  | [], p => .inl ⟨rfl, rfl⟩
  | x :: l, p => by
    rw [List.foldl_cons]
    by_cases hr : (c.on && !p.start && decide (c.warmup ≤ p.commits + 1)) = true
    · have e : commit c p = { start := true } := by unfold commit; simp only; rw [if_pos hr]
      right
      rw [e]
      rcases commits_le c l { start := true } with h | h
      · rw [h.2, List.length_cons]; show 0 + _ ≤ _; omega
      · rw [List.length_cons]; omega
    · have e : commit c p = { p with commits := p.commits + 1 } := by unfold commit; simp only; rw [if_neg hr]
      rw [e]
      rcases commits_le c l { p with commits := p.commits + 1 } with h | h
      · left
        refine ⟨h.1, ?_⟩
        rw [h.2, List.length_cons]
        show p.commits + 1 + _ = _
        omega
      · right
        rw [List.length_cons]
        omega

variable {n : Nat} {k : Spine.Cfg} {s : Spine.St n}

/-- One slot for each place of the group; the slots that fire are the instructions dispatched. -/
theorem slots_count {bw : BranchWindow.Sys n} {rw : RenWindow.Sys} {Z} {g : Nat → BitVec 3} (hl : Link k s bw rw Z g) (c : Spine.Cyc n) (h : Hint) :
    (slotsOf k s c h).length = k.dis.banks ∧
      ((slotsOf k s c h).filter (·.fire)).length = (DispatchGroup.fired (disOut k s c)).length := by
  have hwf := Proofs.Dispatch.wf_reach hl.dr
  have hal : (disOut k s c).alloc.length = k.dis.banks := by
    have := Proofs.Dispatch.slots_length k.dis s.dis (disIn k s c)
    rw [hl.disLen] at this; exact this
  have hfl : (disOut k s c).flags.length = k.dis.banks := by
    have := Proofs.Dispatch.flags_length k.dis hwf (disIn k s c)
    rw [hl.disLen] at this; exact this
  have hfi : (disOut k s c).fire.length = k.dis.banks := by
    have := Proofs.Dispatch.fire_length k.dis hwf (disIn k s c)
    rw [hl.disLen] at this; exact this
  constructor
  · unfold slotsOf
    simp only [List.length_map, List.length_zip, hal, hfl, hfi, Nat.min_self]
  · unfold slotsOf DispatchGroup.fired
    simp only
    rw [List.filter_map, List.length_map]
    have key : ∀ (A : List (Dispatch.Alloc n)) (B C : List Bool), A.length = B.length → B.length = C.length →
        (((A.zip B).zip C).filter (fun x => x.2)).length = ((A.zip C).filterMap (fun x => if x.2 then some x.1 else none)).length := by
      intro A
      induction A with
      | nil => intro B C _ _; simp
      | cons a A ih =>
        intro B C h1 h2
        match B, C, h1, h2 with
        | b :: B, c :: C, h1, h2 =>
          have := ih B C (by simpa using h1) (by simpa using h2)
          cases c <;> simp [this]
    exact key _ _ _ (hal.trans hfl.symm) (hfl.trans hfi.symm)

theorem insts_le {B L : Nat} {r : Rob.State} {W} (h : Proofs.Rob.RInv B L r W) : (insts L r).length ≤ L * B := by
  rw [Proofs.Rob.rinv_insts h]
  unfold Proofs.Rob.content
  have hrow : ∀ x ∈ W, x.length = B := by
    intro x hx
    rw [← h.win] at hx
    have key : ∀ (m a : Nat), x ∈ Ring.ring L r.rows a m → ∃ i, x = r.rows i := by
      intro m
      induction m with
      | zero => intro a h; cases h
      | succ m ih =>
        intro a h
        rcases List.mem_cons.1 h with h | h
        · exact ⟨_, h⟩
        · exact ih _ h
    obtain ⟨i, rfl⟩ := key _ _ hx
    exact h.rowLen _
  have hflat : ∀ W : List Rob.Row, (∀ x ∈ W, x.length = B) → W.flatten.length = W.length * B := by
    intro W
    induction W with
    | nil => intro _; simp
    | cons x W ih =>
      intro hx
      rw [List.flatten_cons, List.length_append, hx x (List.mem_cons_self ..), ih (fun y hy => hx y (List.mem_cons_of_mem _ hy)),
        List.length_cons, Nat.add_mul]
      omega
  refine Nat.le_trans (List.length_filterMap_le _ _) ?_
  rw [hflat W hrow]
  exact Nat.mul_le_mul_right _ h.len

/-- What a cycle does to the number of instructions in the reorder buffer. -/
theorem rob_count (hk : Good k) (h : Spine.Reach k s) (c : Spine.Cyc n) :
    (retired s c).length + (insts k.L (Spine.step k s c).rob).length ≤ (insts k.L s.rob).length + (DispatchGroup.fired (disOut k s c)).length := by
  obtain ⟨bw, rw, Z, g, hl⟩ := link_reach hk h
  obtain ⟨_, _, rest, _, e, _, _, _, hs⟩ := hl.split hk c
  have hs := congrArg List.length hs
  rw [List.length_map] at hs
  have he := congrArg List.length e
  rw [List.length_append] at he
  by_cases hf : flush s c = true
  · rw [if_pos hf, List.length_nil] at hs
    omega
  · rw [if_neg hf] at hs
    by_cases hm : s.idu.latch.mispred = true
    · rw [if_pos hm, List.length_map] at hs
      have := (mis_quiet (c := c) hl hk.lines hm).2
      rw [this, List.length_nil]
      have hp := congrArg List.length (Proofs.Rob.upTo_prefix s.redirect (insts k.L s.rob))
      rw [List.length_append] at hp
      omega
    · rw [if_neg hm, List.length_append, List.length_map, List.length_map] at hs
      omega

theorem spine_reach {q : Ckpt} {p : Perf} (h : TopDown.Reach q k s p) : Spine.Reach k s := by
  induction h with
  | init => exact .init
  | step c _ _ hv _ ih => exact .step c ih hv

theorem sums_reach {q : Ckpt} {p : Perf} (h : TopDown.Reach q k s p) : Sums p := by
  induction h with
  | init => constructor <;> decide
  | step c _ _ hv _ ih => exact cycle_sums q ih ..

theorem init_insts (hk : Good k) : insts k.L (Spine.init n k).rob = [] :=
  (Proofs.Rob.rinv_insts (Proofs.Rob.rinv_init (B := k.dis.banks) hk.lines)).trans rfl

/-- What decode takes is numbered; it is offered. -/
theorem taken_eq (k : Spine.Cfg) (s : Spine.St n) (c : Spine.Cyc n) (hp : Packed c.ib) :
    (Spine.step k s c).next = s.next + taken k s c ∧ taken k s c ≤ count c.ib := by
  obtain ⟨a, r, hib⟩ := hp
  have hd : decSlots k s c = Idu.decodeLoop ((a.map fun x => isBranch (decodeEntry x.1 x.2)).map some ++ List.replicate r none)
      (Idu.allocTags s.idu k.maxBr) (s.idu.now &&& ~~~s.idu.latch.clear) := by
    show Idu.decodeLoop ((c.ib.map _).map _) _ _ = _
    rw [hib]
    simp only [List.map_append, List.map_map, List.map_replicate]
    rfl
  obtain ⟨m, h1, h2⟩ := FullCpuProofs.valid_prefix (n := n) r (a.map fun x => isBranch (decodeEntry x.1 x.2))
    (Idu.allocTags s.idu k.maxBr) (s.idu.now &&& ~~~s.idu.latch.clear)
  rw [← hd] at h2
  rw [List.length_map] at h1
  obtain ⟨f1, f2⟩ := FullCpuProofs.filter_prefix (fun sl : Idu.Slot n => sl.valid) _ _ _ h2
  have hc : count c.ib = a.length := by
    rw [hib]
    unfold count
    rw [List.filterMap_append, List.length_append, List.filterMap_map]
    simp
  constructor
  · show s.next + (Idu.fired s.idu (decSlots k s c) (renReady k s c) (flush s c)).length = _
    unfold TopDown.taken Idu.fired
    split
    · rfl
    · rw [f1, f2]
  · unfold TopDown.taken
    split
    · omega
    · omega

/-- What a cycle does to the number of instructions in flight. -/
theorem flight_count (hk : Good k) (h : Spine.Reach k s) {c : Spine.Cyc n} (hv : Spine.Valid k s c) :
    (retired s c).length + (inflight k (Spine.step k s c)).length ≤ (inflight k s).length + ((Spine.step k s c).next - s.next) := by
  obtain ⟨bw, rw, Z, g, hl⟩ := link_reach hk h
  obtain ⟨_, _, rest, _, hins, _⟩ := hl.split hk c
  have hpre : (retired s c).length ≤ (inflight k s).length := by
    unfold inflight robIds
    rw [hins]
    simp only [List.map_append, List.length_append, List.length_map]
    omega
  by_cases hf : flush s c = true
  · rw [Props.C106_flush hk h hv hf, List.length_nil]
    omega
  · by_cases hm : s.idu.latch.mispred = true
    · obtain ⟨b, _, _, _, hret, _, _, he⟩ := Props.C106_squash hk h hv hm
      rw [he, hret, List.length_nil]
      have := List.length_filter_le (fun x => decide (x ≤ b.id)) (inflight k s)
      omega
    · have he := congrArg List.length (Props.C106_conserved hk h hv (by simpa using hf) (by simpa using hm))
      rw [List.length_append, List.length_append, List.length_map] at he
      unfold accepted at he
      rw [List.length_range'] at he
      omega

theorem init_inflight (hk : Good k) : inflight k (Spine.init n k) = [] := by
  have h := (Props.C106_ordered hk (Spine.Reach.init (k := k) (n := n))).2
  exact List.eq_nil_iff_forall_not_mem.2 fun m hm => Nat.not_lt_zero _ (h m hm)

theorem count_le (l : List (Option α)) : count l ≤ l.length := List.length_filterMap_le _ _

structure Off (k : Spine.Cfg) (s : Spine.St n) (p : Perf) : Prop where
  all : all p = k.dis.banks * p.cycle
  rob : p.commits + (insts k.L s.rob).length ≤ p.issued
  avail : p.avail ≤ p.cycle * k.dis.banks
  taken : p.consumed ≤ p.avail
  next : p.consumed = s.next
  flight : p.commits + (inflight k s).length ≤ p.consumed

/-- One cycle of the counters that are never negative, when nothing is reset. -/
theorem perfStep_off {q : Ckpt} (hq : q.on = false) (c : Spine.Cyc n) (hh : Hint) (p : Perf) :
    let p' := perfStep q k s c hh p
    all p' = all p + (slotsOf k s c hh).length ∧ p'.issued = p.issued + ((slotsOf k s c hh).filter (·.fire)).length ∧
    p'.commits = p.commits + (retired s c).length ∧ p'.cycle = p.cycle + 1 ∧ p'.avail = p.avail + count c.ib ∧
    p'.consumed = p.consumed + taken k s c := by
  unfold perfStep TopDown.cycle
  simp only
  rw [commits_off hq]
  simp only [List.length_range]
  obtain ⟨a1, a2, a3, a4, a5, a6⟩ := slots_all (slotsOf k s c hh) { p with cycle := p.cycle + 1, avail := p.avail + count c.ib }
  generalize (slotsOf k s c hh).foldl slot { p with cycle := p.cycle + 1, avail := p.avail + count c.ib } = P at *
  obtain ⟨k1, k2, k3, k4, k5, k6⟩ := kill_rest { P with commits := P.commits + (retired s c).length, consumed := P.consumed + taken k s c }
    (flush s c) s.idu.latch.mispred (count s.dis.slots) (count s.lat)
  refine ⟨k1.trans a1, k2.trans a2, k3.trans ?_, k4.trans a4, k5.trans a5, k6.trans ?_⟩
  · show P.commits + _ = _; rw [a3]
  · show P.consumed + _ = _; rw [a6]

theorem off_reach (hk : Good k) {q : Ckpt} (hq : q.on = false) {p : Perf} (h : TopDown.Reach q k s p) : Off k s p := by
  induction h with
  | init =>
    exact ⟨rfl, by rw [init_insts hk]; exact Nat.le_refl _, Nat.zero_le _, Nat.le_refl _, rfl, by rw [init_inflight hk]; exact Nat.le_refl _⟩
  | @step s p c hh hr hv hp ih =>
    have hs := spine_reach hr
    obtain ⟨bw, rw, Z, g, hl⟩ := link_reach hk hs
    obtain ⟨c1, c2⟩ := slots_count hl c hh
    have hc := rob_count hk hs c
    have hfl := flight_count hk hs hv
    obtain ⟨t1, t2⟩ := taken_eq k s c hp
    have hw := count_le c.ib
    rw [hv.width] at hw
    obtain ⟨p1, p2, p3, p4, p5, p6⟩ := perfStep_off (k := k) (s := s) hq c hh p
    obtain ⟨i1, i2, i3, i4, i5, i6⟩ := ih
    constructor
    · rw [p1, p4, c1, i1, Nat.mul_succ]
    · rw [p2, p3, c2]; omega
    · rw [p4, p5, Nat.succ_mul]; omega
    · rw [p5, p6]; omega
    · rw [p6, t1, i5]
    · rw [p3, p6]; omega

/-- With a warm-up the counts can be off by what was in flight when the counters were reset. -/
theorem over_reach (hk : Good k) {q : Ckpt} {p : Perf} (h : TopDown.Reach q k s p) :
    p.commits + (insts k.L s.rob).length ≤ p.issued + (k.L + 1) * k.dis.banks := by
  induction h with
  | init => rw [init_insts hk]; exact Nat.zero_le _
  | @step s p c hh hr hv hp ih =>
    have hs := spine_reach hr
    obtain ⟨bw, rw, Z, g, hl⟩ := link_reach hk hs
    obtain ⟨c1, c2⟩ := slots_count hl c hh
    have hc := rob_count hk hs c
    have hb : (DispatchGroup.fired (disOut k s c)).length ≤ k.dis.banks := by
      rw [← c2, ← c1]; exact List.length_filter_le _ _
    obtain ⟨W, hW⟩ := Proofs.Rob.rinv_reach hk.lines hl.qr
    have hcap := insts_le hW
    unfold perfStep TopDown.cycle
    simp only
    obtain ⟨_, a2, a3, _, _⟩ := slots_all (slotsOf k s c hh) { p with cycle := p.cycle + 1, avail := p.avail + count c.ib }
    generalize (slotsOf k s c hh).foldl slot { p with cycle := p.cycle + 1, avail := p.avail + count c.ib } = P at *
    have hcm := commits_le q (List.range (retired s c).length) P
    simp only at hcm
    generalize (List.range (retired s c).length).foldl (fun p _ => commit q p) P = Q at *
    obtain ⟨_, k2, k3, _⟩ := kill_rest { Q with consumed := Q.consumed + taken k s c } (flush s c) s.idu.latch.mispred (count s.dis.slots) (count s.lat)
    rw [k2, k3]
    show Q.commits + _ ≤ Q.issued + _
    have e1 : (k.L + 1) * k.dis.banks = k.L * k.dis.banks + k.dis.banks := by rw [Nat.add_mul, Nat.one_mul]
    have a2 : P.issued = p.issued + _ := a2
    have a3 : P.commits = p.commits := a3
    rw [List.length_range] at hcm
    rcases hcm with ⟨b1, b2⟩ | b <;> omega

end Verif.TopDownProofs

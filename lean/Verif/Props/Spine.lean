import Verif.Proofs.SpineKeep
import Verif.Props.Ren
/-
C106: the in-order back end as a whole.  Decode, rename, dispatch and the reorder buffer are proved one by one under
assumptions about each other (C10-C18, C42, C43).  Here they are wired together; the assumptions are discharged, and what
they say together is stated of the composition.
-/
namespace Verif.Props
open Verif.Spine Verif.SpineProofs
open Verif.RobQueue (insts)
open Verif.DispatchGroup (waiting)

variable {n : Nat} {k : Cfg} {s : St n}

/-- The reorder-buffer part of the decode window lists the numbers held by the reorder buffer. -/
theorem rob_ids {bw : BranchWindow.Sys n} {rw : RenWindow.Sys} {Z} {g : Nat → BitVec 3} (hl : Link k s bw rw Z g) :
    Z.map (fun z => z.1.seq) = robIds k s := by
  have := congrArg (List.map Prod.fst) hl.sigs
  rw [List.map_map, List.map_map] at this
  unfold robIds
  rw [show (fun u : Rob.Uop => u.id) = Prod.fst ∘ RobQueue.sig from rfl, this]
  apply List.map_congr_left
  intro z hz; exact (hl.j z hz).seq

theorem win_seq {bw : BranchWindow.Sys n} {rw : RenWindow.Sys} {Z} {g : Nat → BitVec 3} (hl : Link k s bw rw Z g) :
    bw.win.map (·.seq) = inflight k s := by
  rw [hl.win, List.map_append, List.map_append, List.map_map, List.map_map, List.map_map]
  unfold inflight
  rw [← rob_ids hl]; rfl

/-- C106: each stage only ever sees inputs its closed model assumes: its state is a reachable state of that model, and the
windows of decode and rename are the instructions actually held by the stages. -/
theorem C106_components (hk : Good k) (h : Reach k s) :
    DispatchGroup.Reach k.dis k.dis.banks s.dis ∧ RobQueue.Reach k.dis.banks k.L s.rob ∧
    (∃ bw : BranchWindow.Sys n, BranchWindow.Reach n k.maxBr bw ∧ bw.idu = s.idu ∧ bw.next = s.next ∧
      bw.win.map (·.seq) = inflight k s) ∧
    (∃ rw, RenWindow.Reach k.P k.A n rw ∧ rw.regs = s.regs ∧ rw.insts = s.lat.map (Option.map toInst) ∧
      rw.win.map (fun e => (e.destEn, e.areg, e.preg, e.old)) =
        (robIds k s ++ disIds s).map (fun m => ((s.info m).destEn, (s.info m).areg, (s.info m).preg, (s.info m).old))) := by
  obtain ⟨bw, rw, Z, g, hl⟩ := link_reach hk h
  refine ⟨hl.dr, hl.qr, ⟨bw, hl.br, hl.idu, hl.next, ?_⟩, ⟨rw, hl.rr, hl.regs, hl.latch, ?_⟩⟩
  · exact win_seq hl
  · rw [hl.rwin, List.map_append, List.map_append, List.map_map, List.map_map, ← rob_ids hl, List.map_map]
    unfold disIds
    rw [List.map_map]; rfl

/-- C106: the instructions in flight are in decode order across the stages: those in the reorder buffer are older than those
waiting for dispatch, which are older than those in rename. -/
theorem C106_ordered (hk : Good k) (h : Reach k s) : (inflight k s).Pairwise (· < ·) ∧ ∀ m ∈ inflight k s, m < s.next := by
  obtain ⟨_, _, ⟨bw, hb, _, hn, hw⟩, _⟩ := C106_components hk h
  have hc := (IduProofs.inv_reach hb).core
  rw [← hw]
  refine ⟨?_, ?_⟩
  · rw [List.pairwise_map]; exact hc.sorted
  · intro m hm
    obtain ⟨f, hf, rfl⟩ := List.mem_map.1 hm
    have := hc.lt f hf
    rw [hn] at this; exact this

theorem number_seq : ∀ (l : List (Idu.Slot n)) (m : Nat), (BranchWindow.number m l).map (·.seq) = List.range' m l.length
  | [], _ => rfl
  | _ :: l, m => by
    simp only [BranchWindow.number, List.map_cons, List.length_cons, List.range'_succ]
    rw [number_seq l (m + 1)]

/-- What becomes of the instructions in flight in one cycle. -/
theorem window_step (hk : Good k) {bw : BranchWindow.Sys n} {rw : RenWindow.Sys} {Z} {g : Nat → BitVec 3}
    (hl : Link k s bw rw Z g) {c : Cyc n} (hv : Valid k s c) :
    inflight k (step k s c) = if flush s c then [] else
      ((bw.win.filter (fun f => !BranchWindow.killed (Idu.combBranch s.idu) f)).map (·.seq)).drop (retired s c).length ++
        accepted k s c := by
  obtain ⟨Z', hl'⟩ := link_step hk hl hv
  rw [← win_seq hl']
  show (if flush s c then [] else (BranchWindow.afterBcast bw).drop (iB k s c).retire ++ BranchWindow.number bw.next
      (Idu.fired bw.idu (Idu.combDecode bw.idu k.maxBr (iB k s c).entries) (renReady k s c) (flush s c))).map _ = _
  split
  · rfl
  · rename_i hf
    have hr : (iB k s c).retire = (retired s c).length := by simp [iB, hf]
    rw [List.map_append, number_seq, hr, List.map_drop, hl.idu, hl.next]
    congr 1
    · unfold BranchWindow.afterBcast
      simp only [List.map_map, hl.idu]; rfl
    · unfold accepted
      have : (step k s c).next - s.next = (Idu.fired s.idu (decSlots k s c) (renReady k s c) (flush s c)).length := by
        show s.next + _ - s.next = _
        omega
      rw [this]; rfl

/-- C106: in an ordinary cycle nothing is lost, duplicated or reordered: what retires followed by what is in flight
afterwards is what was in flight before followed by what was decoded. -/
theorem C106_conserved (hk : Good k) (h : Reach k s) {c : Cyc n} (hv : Valid k s c) (hf : flush s c = false)
    (hm : s.idu.latch.mispred = false) :
    (retired s c).map (·.id) ++ inflight k (step k s c) = inflight k s ++ accepted k s c := by
  obtain ⟨bw, rw, Z, g, hl⟩ := link_reach hk h
  have he := window_step hk hl hv
  obtain ⟨_, _, rest, _, hins, _⟩ := hl.split hk c
  have hpre : ∃ r, inflight k s = (retired s c).map (·.id) ++ r := by
    refine ⟨rest.map (·.id) ++ disIds s ++ latIds s, ?_⟩
    unfold inflight robIds
    rw [hins]; simp
  obtain ⟨r, hr⟩ := hpre
  rw [he, hf, List.filter_eq_self.2 (fun f _ => by
    rw [← hl.idu, IduProofs.not_killed (by rw [hl.idu]; exact hm)]; rfl), win_seq hl, hr]
  simp only [Bool.false_eq_true, if_false]
  rw [List.drop_left' (by simp), List.append_assoc]

/-- C106: a misprediction removes from every stage exactly the instructions decoded after the branch; nothing retires and
nothing is decoded in that cycle. -/
theorem C106_squash (hk : Good k) (h : Reach k s) {c : Cyc n} (hv : Valid k s c) (hm : s.idu.latch.mispred = true) :
    ∃ b ∈ insts k.L s.rob, b.robIdx = s.redirect ∧ (s.info b.id).tag = some s.idu.latch.brId ∧
      retired s c = [] ∧ flush s c = false ∧ (step k s c).next = s.next ∧
      inflight k (step k s c) = (inflight k s).filter (· ≤ b.id) := by
  obtain ⟨bw, rw, Z, g, hl⟩ := link_reach hk h
  obtain ⟨hf, hret⟩ := mis_quiet (c := c) hl hk.lines hm
  have he := window_step hk hl hv
  obtain ⟨z, hz, hzt, hzr⟩ := hl.mis hm
  obtain ⟨u, hu, hsu⟩ := List.mem_map.1 (show z.2 ∈ (insts k.L s.rob).map RobQueue.sig by
    rw [hl.sigs]; exact List.mem_map_of_mem hz)
  have hJ := hl.j z hz
  have hid : z.2.1 = u.id := by rw [← hsu]; rfl
  have hix : z.2.2.1 = u.robIdx := by rw [← hsu]; rfl
  have htag : (s.info u.id).tag = some s.idu.latch.brId := by
    rw [← hid]
    rcases hJ.tag with e | e
    · rw [e] at hzt; cases hzt
    · rw [← e, hzt]
  have hfired : Idu.fired s.idu (decSlots k s c) (renReady k s c) (flush s c) = [] := by
    unfold Idu.fired; rw [hm]; simp
  have hnext : (step k s c).next = s.next := by
    show s.next + _ = s.next
    rw [hfired]; rfl
  refine ⟨u, hu, by rw [← hix, hzr], htag, hret, hf, hnext, ?_⟩
  have hacc : accepted k s c = [] := by
    unfold accepted; rw [hnext, Nat.sub_self]; rfl
  rw [he, hf, hret, hacc]
  simp only [Bool.false_eq_true, if_false, List.length_nil, List.drop_zero, List.append_nil]
  have hsq : z.1.seq = u.id := by rw [← hid]; exact hJ.seq
  rw [← win_seq hl, List.filter_map]
  congr 1
  apply List.filter_congr
  intro f hf'
  have hki := IduProofs.killed_iff (IduProofs.inv_reach hl.br) (by rw [hl.idu]; exact hm) (hl.memZ hz)
    (by rw [hl.idu]; exact hzt) hf'
  rw [hl.idu, hsq] at hki
  simp only [Function.comp]
  by_cases hlt : u.id < f.seq
  · rw [hki.2 hlt]; simp; omega
  · have : BranchWindow.killed (Idu.combBranch s.idu) f = false := by
      cases hkk : BranchWindow.killed (Idu.combBranch s.idu) f with
      | false => rfl
      | true => exact absurd (hki.1 hkk) hlt
    rw [this]; simp; omega

/-- C106: an exception, an interrupt or a serialising instruction empties every stage. -/
theorem C106_flush (hk : Good k) (h : Reach k s) {c : Cyc n} (hv : Valid k s c) (hf : flush s c = true) :
    inflight k (step k s c) = [] := by
  obtain ⟨bw, rw, Z, g, hl⟩ := link_reach hk h
  rw [window_step hk hl hv, hf]; rfl

theorem renamed_eq {bw : BranchWindow.Sys n} {rw : RenWindow.Sys} {Z} {g : Nat → BitVec 3} (hl : Link k s bw rw Z g) :
    RenWindow.pregs rw.win = RenWindow.pregs (renamed k s) ∧
      ∀ a, RenWindow.lastWriter rw.win a = RenWindow.lastWriter (renamed k s) a := by
  let st : RenWindow.Entry → RenWindow.Entry := fun e => { e with tag := none }
  have hp : ∀ l, RenWindow.pregs (l.map st) = RenWindow.pregs l := by
    intro l
    simp only [RenWindow.pregs, List.filter_map, List.map_map]; rfl
  have hw : ∀ l a, RenWindow.lastWriter (l.map st) a = RenWindow.lastWriter l a := by
    intro l a
    simp only [RenWindow.lastWriter, ← List.map_reverse, List.find?_map, Option.map_map]; rfl
  have he : rw.win.map st = (renamed k s).map st := by
    rw [hl.rwin, renamed, ← rob_ids hl]
    simp only [List.map_append, List.map_map, disIds]
    rfl
  exact ⟨by rw [← hp, he, hp], fun a => by rw [← hw, he, hw]⟩

/-- C106: every physical register is free, holds the committed value of one architectural register, or is the destination of
one instruction in dispatch or the reorder buffer - exactly one of these. -/
theorem C106_registers (hk : Good k) (h : Reach k s) :
    (RenWindow.free k.P s.regs ++ ((List.range k.A).map s.regs.arch ++ RenWindow.pregs (renamed k s))).Perm
      (List.range k.P) := by
  obtain ⟨bw, rw, Z, g, hl⟩ := link_reach hk h
  have := C12_partition_committed (by have := hk.regs; omega) hk.pregs hl.rr
  rw [hl.regs, (renamed_eq hl).1] at this
  exact this

/-- C106: the map that the next instruction is renamed with sends each register to the destination of the youngest
instruction in flight that writes it, and otherwise to its committed value. -/
theorem C106_dataflow (hk : Good k) (h : Reach k s) (a : Nat) :
    s.regs.spec a = (RenWindow.lastWriter (renamed k s) a).getD (s.regs.arch a) := by
  obtain ⟨bw, rw, Z, g, hl⟩ := link_reach hk h
  have hi := (Proofs.Ren.sinv_reach (by have := hk.regs; omega) hk.pregs hl.rr).regs
  rw [← hl.regs, hi.specEq, Proofs.Ren.applyAll_eq, (renamed_eq hl).2]

/-- C106: the run-time checks of the free list never fail. -/
theorem C106_no_assert (hk : Good k) (h : Reach k s) : s.regs.ok = true := by
  obtain ⟨bw, rw, Z, g, hl⟩ := link_reach hk h
  rw [← hl.regs]
  exact C12_no_assert (by have := hk.regs; omega) hk.pregs hl.rr

/-- C106: the branch mask of an instruction waiting for dispatch contains the tag of every older branch that has not
finished, and nothing but tags of older branches in flight. -/
theorem C106_masks (hk : Good k) (h : Reach k s) {u : Dispatch.Inst n} (hu : u ∈ waiting s.dis) (t : Nat) :
    ((∃ v ∈ insts k.L s.rob, (s.info v.id).tag = some t ∧ v.cplt.getLsbD 1 = false) → u.brMask.getLsbD t = true) ∧
    ((∃ v ∈ waiting s.dis, v.ftq < u.ftq ∧ (s.info v.ftq).tag = some t) → u.brMask.getLsbD t = true) ∧
    (u.brMask.getLsbD t = true → ∃ m ∈ robIds k s ++ disIds s, m < u.ftq ∧ (s.info m).tag = some t) := by
  obtain ⟨bw, rw, Z, g, hl⟩ := link_reach hk h
  have hc := hl.core
  have hum : disF s.info u ∈ bw.win := by
    rw [hl.win]; exact List.mem_append_left _ (List.mem_append_right _ (List.mem_map_of_mem hu))
  have hmask := hc.mask _ hum t
  have hord := (C106_ordered hk h).1
  refine ⟨?_, ?_, ?_⟩
  · rintro ⟨v, hv, ht, hcp⟩
    obtain ⟨z, hz, hzs⟩ := List.mem_map.1 (show RobQueue.sig v ∈ Z.map Prod.snd by
      rw [← hl.sigs]; exact List.mem_map_of_mem hv)
    have hJ := hl.j z hz
    have hid : z.2.1 = v.id := by rw [hzs]; rfl
    have hix : z.2.2.1 = v.robIdx := by rw [hzs]; rfl
    obtain ⟨W, hr⟩ := Proofs.Rob.rinv_reach hk.lines hl.qr
    have hg := done_mem hr hl.done hv
    refine hmask.2 ⟨z.1, hl.memZ hz, ?_, hJ.owns t (by rw [hid]; exact ht) (by rw [hix, ← hg]; exact hcp)⟩
    have : v.id < u.ftq := by
      unfold inflight at hord
      rw [List.append_assoc, List.pairwise_append] at hord
      exact hord.2.2 _ (List.mem_map_of_mem hv) _ (List.mem_append_left _ (List.mem_map_of_mem hu))
    rw [hJ.seq, hid]; exact this
  · rintro ⟨v, hv, hlt, ht⟩
    exact hmask.2 ⟨disF s.info v, by
      rw [hl.win]; exact List.mem_append_left _ (List.mem_append_right _ (List.mem_map_of_mem hv)), hlt, ht⟩
  · intro hb
    obtain ⟨f, hf, hlt, ht⟩ := hmask.1 hb
    rw [hl.win] at hf
    rcases List.mem_append.1 hf with hf | hf
    · rcases List.mem_append.1 hf with hf | hf
      · obtain ⟨z, hz, rfl⟩ := List.mem_map.1 hf
        have hJ := hl.j z hz
        refine ⟨z.1.seq, List.mem_append_left _ ?_, hlt, ?_⟩
        · rw [← rob_ids hl]; exact List.mem_map_of_mem (f := fun z => z.1.seq) hz
        · rcases hJ.tag with e | e
          · rw [e] at ht; cases ht
          · rw [hJ.seq, ← e]; exact ht
      · obtain ⟨v, hv, rfl⟩ := List.mem_map.1 hf
        exact ⟨v.ftq, List.mem_append_right _ (List.mem_map_of_mem hv), hlt, ht⟩
    · obtain ⟨d, hd, rfl⟩ := List.mem_map.1 hf
      unfold inflight at hord
      rw [List.append_assoc, List.pairwise_append] at hord
      have := (List.pairwise_append.1 hord.2.1).2.2 _ (List.mem_map_of_mem hu) _ (List.mem_map_of_mem hd)
      have hlt' : d.uid < u.ftq := hlt
      omega

/-! ### Whole runs -/

theorem hist_reach {ret : List Nat} (h : Hist k s ret) : Reach k s := by
  induction h with
  | init => exact .init
  | step c _ hv ih => exact .step c ih hv

/-- C106: over a whole run instructions retire in decode order, none twice, and none that was squashed: what has retired and
what is in flight are together strictly increasing. -/
theorem C106_retire_in_order (hk : Good k) {ret : List Nat} (h : Hist k s ret) :
    (ret ++ inflight k s).Pairwise (· < ·) ∧ ∀ m ∈ ret ++ inflight k s, m < s.next := by
  induction h with
  | init =>
    have := C106_ordered hk (Reach.init (k := k) (n := n))
    exact this
  | step c h hv ih =>
    rename_i s ret
    have hr := hist_reach h
    have hr' : Reach k (step k s c) := .step c hr hv
    obtain ⟨ho, hlt⟩ := ih
    have hmono : s.next ≤ (step k s c).next := by show _ ≤ s.next + _; omega
    obtain ⟨bw, rw, Z, g, hl⟩ := link_reach hk hr
    obtain ⟨_, _, rest, _, hins, _⟩ := hl.split hk c
    have hpre : inflight k s = (retired s c).map (·.id) ++ (rest.map (·.id) ++ disIds s ++ latIds s) := by
      unfold inflight robIds
      rw [hins]; simp
    by_cases hf : flush s c = true
    · rw [C106_flush hk hr hv hf, List.append_nil]
      rw [hpre, ← List.append_assoc] at ho hlt
      exact ⟨(List.pairwise_append.1 ho).1, fun m hm => Nat.lt_of_lt_of_le (hlt m (List.mem_append_left _ hm)) hmono⟩
    · by_cases hm : s.idu.latch.mispred = true
      · obtain ⟨b, _, _, _, hret, _, _, he⟩ := C106_squash hk hr hv hm
        rw [he, hret]
        simp only [List.map_nil, List.append_nil]
        have hsub : List.Sublist (ret ++ (inflight k s).filter (· ≤ b.id)) (ret ++ inflight k s) :=
          List.Sublist.append_left List.filter_sublist _
        exact ⟨ho.sublist hsub, fun m hm => Nat.lt_of_lt_of_le (hlt m (hsub.subset hm)) hmono⟩
      · have he := C106_conserved hk hr hv (by simpa using hf) (by simpa using hm)
        rw [List.append_assoc, he, ← List.append_assoc]
        have hacc : ∀ m ∈ accepted k s c, s.next ≤ m ∧ m < (step k s c).next := by
          intro m hm'
          unfold accepted at hm'
          rw [List.mem_range'_1] at hm'
          omega
        refine ⟨List.pairwise_append.2 ⟨ho, List.pairwise_lt_range', ?_⟩, ?_⟩
        · intro a ha b hb
          have := hlt a ha; have := (hacc b hb).1; omega
        · intro m hm'
          rcases List.mem_append.1 hm' with h' | h'
          · exact Nat.lt_of_lt_of_le (hlt m h') hmono
          · exact (hacc m h').2

/-- C106: a squashed instruction is gone for good - a number no longer in flight never comes back. -/
theorem C106_gone (hk : Good k) (h : Reach k s) {c : Cyc n} (hv : Valid k s c) {m : Nat} (hm : m < s.next)
    (hn : m ∉ inflight k s) : m ∉ inflight k (step k s c) := by
  obtain ⟨bw, rw, Z, g, hl⟩ := link_reach hk h
  rw [window_step hk hl hv]
  split
  · exact List.not_mem_nil
  · intro hc
    rcases List.mem_append.1 hc with hc | hc
    · obtain ⟨f, hf, rfl⟩ := List.mem_map.1 (List.mem_of_mem_drop hc)
      exact hn (by rw [← win_seq hl]; exact List.mem_map_of_mem ((List.mem_filter.1 hf).1))
    · unfold accepted at hc
      rw [List.mem_range'_1] at hc
      omega

/-! ### A concrete run

`addi`, `beq`, `add`, `addi`, `addi`, `ecall` are decoded; the `beq` turns out mispredicted when all six are in flight; the
right path is `addi`, `ecall`. -/
namespace SpineRun

def kx : Cfg := ⟨48, 33, 2, ⟨fun _ => 2, 2, 2, 4, 2⟩, 4⟩

theorem kx_good : Good kx := ⟨by decide, ⟨1, rfl⟩, by decide, by decide⟩

def quiet : Cyc 4 :=
  ⟨[none, none], 0, false, 4, 4, fun _ => true, fun i => i, fun _ => 2, [], false, false, false, [], []⟩
def fetch (a b : BitVec 32) : Cyc 4 := { quiet with ib := [some (a, false), some (b, false)] }
def fin (i : Nat) : Rob.Wb := ⟨i, .other, 1#3, 0, 0, false, false, false, false⟩
def beq : Exu.Op 4 := ⟨1, 0, 0, 0#4, 1, false, 1, true, 0x100#32, false, 0, 0⟩

def prog : List (Cyc 4) :=
  [fetch 0x00100293 0x00028463, fetch 0x00528333 0x00200393, fetch 0x00100293 0x00000073,
   { quiet with wbs := [fin 0], res := [beq] }, quiet, fetch 0x00100293 0x00000073, quiet, quiet,
   { quiet with wbs := [fin 2] }, quiet, quiet, { quiet with wbs := [fin 5] }, quiet]

def chk (s : St 4) (c : Cyc 4) : Bool :=
  c.ib.length == 2 &&
  c.res.all (fun o => (live kx s).any (fun u => decide (u.robIdx = o.robIdx) && decide ((s.info u.id).tag = some o.brId) &&
    !u.cplt.getLsbD 1)) && c.wbs.all (fun w => !w.bit.getLsbD 1)

theorem chk_valid {s : St 4} {c : Cyc 4} (h : chk s c = true) : Valid kx s c := by
  simp only [chk, Bool.and_eq_true, beq_iff_eq, List.all_eq_true, List.any_eq_true, decide_eq_true_eq,
    Bool.not_eq_true'] at h
  refine ⟨h.1.1, fun o ho => .inl ?_, fun w hw hb => ?_⟩
  · obtain ⟨u, hu, ⟨h1, h2⟩, h3⟩ := h.1.2 o ho
    exact ⟨u, hu, h1, h2, h3⟩
  · rw [h.2 w hw] at hb; cases hb

def run : St 4 → List (Cyc 4) → Option (St 4)
  | s, [] => some s
  | s, c :: l => if chk s c then run (step kx s c) l else none

def after (i : Nat) : St 4 := (prog.take i).foldl (step kx) (init 4 kx)

theorem run_hist : ∀ (l : List (Cyc 4)) {s : St 4} {ret}, Hist kx s ret → (run s l).isSome = true →
    ∃ ret', Hist kx (l.foldl (step kx) s) ret'
  | [], _, _, h, _ => ⟨_, h⟩
  | c :: l, s, ret, h, hr => by
    rw [run] at hr
    split at hr
    · rename_i hc
      exact run_hist l (.step c h (chk_valid hc)) hr
    · cases hr

theorem prog_runs (i : Nat) : ∃ ret, Hist kx (after i) ret := by
  refine run_hist (prog.take i) .init ?_
  by_cases hi : i < 13
  · have : ∀ i < 13, (run (init 4 kx) (prog.take i)).isSome = true := by decide +kernel
    exact this i hi
  · rw [List.take_of_length_le (by simp only [prog, List.length_cons, List.length_nil]; omega)]
    decide +kernel

theorem reach (i : Nat) : Reach kx (after i) := by
  obtain ⟨_, h⟩ := prog_runs i
  exact hist_reach h

/-- The six instructions spread over the stages, and the misprediction being broadcast. -/
example : inflight kx (after 4) = [0, 1, 2, 3, 4, 5] ∧ robIds kx (after 4) = [0, 1, 2, 3] ∧
    (after 4).idu.latch.mispred = true ∧ (after 4).redirect = 1 ∧ ((after 4).info 1).tag = some 1 := by decide +kernel

/-- The broadcast leaves the branch and what is older. -/
example : inflight kx (step kx (after 4) quiet) = [0, 1] := by decide +kernel
example : Valid kx (after 4) quiet := chk_valid (by decide +kernel)

/-- Both retire while nothing is decoded; the right path is numbered on from there. -/
example : (retired (after 5) (fetch 0x00100293 0x00000073)).map (·.id) = [0, 1] ∧ inflight kx (after 6) = [6, 7] ∧
    accepted kx (after 5) (fetch 0x00100293 0x00000073) = [6, 7] := by decide +kernel

/-- `ecall` waits until it is alone, then empties everything. -/
example : robIds kx (after 8) = [6] ∧ disIds (after 8) = [7] ∧ robIds kx (after 12) = [7] ∧
    flush (after 12) quiet = true ∧ inflight kx (after 13) = [] := by decide +kernel

/-- Before the branch is resolved the younger waiting instruction carries its tag. -/
example : (waiting (after 3).dis).map (fun u => (u.ftq, u.brMask)) = [(2, 2#4), (3, 2#4)] ∧
    (insts 4 (after 3).rob).map (fun v => ((after 3).info v.id).tag) = [none, some 1] := by decide +kernel

/-- The destinations in flight: x5, x6 and x7 in new registers, `add` reading the new x5. -/
example : (RenWindow.pregs (renamed kx (after 4))) = [33, 34, 35, 36] ∧ (after 4).regs.spec 5 = 36 ∧
    (after 4).regs.arch 5 = 5 ∧ (after 5).regs.spec 5 = 33 := by decide +kernel

end SpineRun
end Verif.Props

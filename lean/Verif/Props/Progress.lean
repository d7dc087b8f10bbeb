import Verif.Proofs.Progress
import Verif.Props.Waker
/-
C124: no operation waits in vain: what an operation in an issue queue waits for is a result that is still going to be announced; the
oldest instruction waits for nothing and is issued as soon as a unit takes it.
-/
namespace Verif.Props
open Verif.Spine Verif.SpineProofs Verif.ProgressProofs
open Verif.Decode (Iq decompose MicroOp DecInst)
open Verif.RobQueue (insts)
open Verif.IssueWindow (queued ready waits)
open Verif.IssueQueue (Uop Port)
open Verif.Sched (part reads feeds)
open Verif.Waker (computes delay Alu)
open Verif.Progress (OnWay)

section
variable {n : Nat} {k : Waker.Cfg} {s : Waker.State n}

/-- C124: an operation in a queue waits with a source exactly if an instruction in the reorder buffer produces what it reads and
has not been announced. -/
theorem C124_waits (hk : Good k.sc.sp) (ha : Alu k) (h : Progress.Reach k s) {q : Iq} {x : Uop n} (hx : x ∈ queued (s.sc.iq q)) :
    ∃ m, part s.sc x.id q = some m ∧ ∀ b, (∃ p, waits x b p) ↔
      ∃ j ∈ robIds k.sc.sp s.sc.sp, feeds s.sc j x.id m b ∧ s.sc.ann j = false := by
  obtain ⟨_, _, bw, _, _, _, _, I, _⟩ := WakerProofs.reach hk ha (base h)
  have Q := reach hk ha h
  obtain ⟨m, hm, m1, _, m3, m4⟩ := (I.ops q x hx).op
  refine ⟨m, by rw [← m1]; exact OooProofs.part_mem hm, fun b => ⟨?_, ?_⟩⟩
  · rintro ⟨p, h1, h2, _⟩
    obtain ⟨m', hm', e, hj⟩ := Q.wait q x hx b h1 h2
    rw [← op_inj hm' hm (e.trans m1.symm)]
    exact hj
  · rintro ⟨j, hj, hf, hn⟩
    have hen := (SchedProofs.reads_src (m3 b) hf.2.1).1
    refine ⟨_, hen, ?_, rfl⟩
    cases hb : (x.src b).busy with
    | true => rfl
    | false => rw [m4 b j hj hf hb] at hn; cases hn

/-- C124: the register named by a source of an instruction in the dispatch stage: the destination of the youngest older
instruction in flight that writes the operand, or the committed register if there is none. -/
theorem C124_sources (hk : Good k.sc.sp) (ha : Alu k) (h : Progress.Reach k s) {u : Dispatch.Inst n}
    (hu : u ∈ DispatchGroup.waiting s.sc.sp.dis) :
    let old := ((inflight k.sc.sp s.sc.sp).filter (fun i => decide (i < u.ftq))).map s.sc.sp.info
    u.src1Preg = (RenWindow.lastWriter old u.dec.src1Areg).getD (s.sc.sp.regs.arch u.dec.src1Areg) ∧
    u.src2Preg = (RenWindow.lastWriter old u.dec.src2Areg).getD (s.sc.sp.regs.arch u.dec.src2Areg) :=
  (reach hk ha h).src u hu

/-- C124: the table of dispatch: a committed register is never marked, and the destination of an instruction in the reorder buffer is
marked exactly if it has not been announced. -/
theorem C124_table (hk : Good k.sc.sp) (ha : Alu k) (h : Progress.Reach k s) :
    (∀ a < k.sc.sp.A, s.sc.sp.dis.busy (s.sc.sp.regs.arch a) = false) ∧
    ∀ j ∈ robIds k.sc.sp s.sc.sp, (s.sc.inst j).dec.destEn = true →
      (s.sc.sp.dis.busy (s.sc.inst j).destPreg = true ↔ s.sc.ann j = false) := by
  obtain ⟨_, _, bw, _, _, _, _, I, _⟩ := WakerProofs.reach hk ha (base h)
  have Q := reach hk ha h
  refine ⟨Q.arch, fun j hj hd => ⟨fun hb => ?_, fun hn => ?_⟩⟩
  · cases hx : s.sc.ann j with
    | false => rfl
    | true => rw [Q.told j hj hd hx] at hb; cases hb
  · exact I.table j hj hd hn

/-- C124: an instruction that retires without an exception or interrupt has had its destination announced. -/
theorem C124_retired (hk : Good k.sc.sp) (ha : Alu k) (h : Progress.Reach k s) {c : Waker.Cyc n} (hv : Progress.Valid k s c) {ws : List Nat}
    (hw : Waker.wakes k s c = some ws) {v : Rob.Uop} (hm : v ∈ retired s.sc.sp (Sched.hw k.sc s.sc (Waker.cyc c ws)))
    (hne : (retired s.sc.sp (Sched.hw k.sc s.sc (Waker.cyc c ws))).any Rob.isExc = false)
    (hni : interrupt s.sc.sp (Sched.hw k.sc s.sc (Waker.cyc c ws)) = false) (hd : (s.sc.inst v.id).dec.destEn = true) :
    s.sc.ann v.id = true ∨ (s.sc.inst v.id).destPreg ∈ ws := by
  obtain ⟨_, hr, bw, _, _, _, hl, I, W⟩ := WakerProofs.reach hk ha (base h)
  rcases told_of hk hr hl I W hv hw v hm (by rw [hne, hni]; rfl) hd with h | h
  · exact .inl h
  · exact .inr (List.contains_iff_mem.1 h)

/-- C124: an operation of the oldest instruction waits for nothing, except that the data operation of an atomic
read-modify-write waits for the instruction's own load. -/
theorem C124_oldest_ready (hk : Good k.sc.sp) (ha : Alu k) (h : Progress.Reach k s) {q : Iq} {x : Uop n} (hx : x ∈ queued (s.sc.iq q))
    (ho : ∀ j ∈ robIds k.sc.sp s.sc.sp, x.id ≤ j)
    (hm : ∀ m, part s.sc x.id q = some m → m.src1FromDest = true → s.sc.ann x.id = true) : ready x := by
  obtain ⟨m, h1, h2⟩ := C124_waits hk ha h hx
  intro b p hw
  obtain ⟨j, hj, hf, hn⟩ := (h2 b).1 ⟨p, hw⟩
  have := hf.2.2
  split at this
  · rename_i hc
    rw [this.1, hm m h1 hc.1] at hn; cases hn
  · have := ho j hj; omega

/-- Two slots of a queue hold different instructions. -/
theorem slot_inj : ∀ {l : List (Option (Uop n))}, ((l.filterMap id).map (·.id)).Nodup → ∀ {y j : Nat} {a v : Uop n},
    l[y]? = some (some a) → l[j]? = some (some v) → a.id = v.id → y = j
  | [], _, _, _, _, _, h, _, _ => by simp at h
  | o :: l, hn, y, j, a, v, h1, h2, e => by
    have hn' : ((l.filterMap id).map (·.id)).Nodup := by
      cases o with
      | none => exact hn
      | some w => exact (List.nodup_cons.1 hn).2
    have out : ∀ {i : Nat} {w z : Uop n}, o = some w → l[i]? = some (some z) → w.id ≠ z.id := by
      rintro i w z rfl hz he
      refine (List.nodup_cons.1 hn).1 ?_
      show w.id ∈ _
      rw [he]
      exact List.mem_map_of_mem (f := fun u : Uop n => u.id) (List.mem_filterMap.2 ⟨some z, List.mem_of_getElem? hz, rfl⟩)
    cases y with
    | zero =>
      cases j with
      | zero => rfl
      | succ j =>
        rw [List.getElem?_cons_zero, Option.some.injEq] at h1
        rw [List.getElem?_cons_succ] at h2
        exact absurd e (out h1 h2)
    | succ y =>
      rw [List.getElem?_cons_succ] at h1
      cases j with
      | zero =>
        rw [List.getElem?_cons_zero, Option.some.injEq] at h2
        exact absurd e.symm (out h2 h1)
      | succ j =>
        rw [List.getElem?_cons_succ] at h2
        rw [slot_inj hn' h1 h2 e]

/-- With the age policy, a ready operation of the oldest instruction is issued. -/
theorem oldest_issues (hk : Good k.sc.sp) (ha : Alu k) (h : Progress.Reach k s) {q : Iq} {x : Uop n} (hx : x ∈ queued (s.sc.iq q))
    (ho : ∀ j ∈ robIds k.sc.sp s.sc.sp, x.id ≤ j)
    (hrd : ready x) (hp : k.sc.policy q = true) (hc : ∃ p ∈ k.sc.ports q, p.cap x.op = true) (c : Sched.Cyc n)
    (hf : flush s.sc.sp (Sched.hw k.sc s.sc c) = false) (hmi : s.sc.sp.idu.latch.mispred = false)
    (hfu : ∀ p o, c.fuReady p o = true) : x ∈ Sched.issued k.sc s.sc c q := by
  have hs := C123_queues hk ha (base h)
  obtain ⟨_, bw, _, _, _, _, I⟩ := SchedProofs.inv_reach hk hs
  have hblk : (Sched.iqIn k.sc s.sc c q).block = false := by
    show (flush s.sc.sp (Sched.hw k.sc s.sc c) || s.sc.sp.idu.latch.mispred) = false
    rw [hf, hmi]; rfl
  obtain ⟨i, hi⟩ := Proofs.IssueQueue.mem_queued.1 hx
  have hiq := I.iqr q
  by_cases hg : ∃ p, (i, p) ∈ IssueQueue.granted (k.sc.policy q) (k.sc.ports q) (s.sc.iq q) (Sched.iqIn k.sc s.sc c q).fuReady
      (Sched.iqIn k.sc s.sc c q).block
  · obtain ⟨p, hg⟩ := hg
    exact List.mem_filterMap.2 ⟨_, hg, by rw [hi]; rfl⟩
  · exfalso
    obtain ⟨p, hpp, hcap⟩ := hc
    obtain ⟨y, hy⟩ := C23_work_conserving hiq (Sched.iqIn k.sc s.sc c q) hi hrd hblk hfu (fun r hr => hg ⟨r, hr⟩) hpp hcap
    obtain ⟨u, hu⟩ : ∃ u, (s.sc.iq q).ent[y]? = some (some u) := by
      obtain ⟨u, _, hu, _⟩ := C23_sound hiq (Sched.iqIn k.sc s.sc c q) hy
      exact ⟨u, hu⟩
    rw [hp] at hy hg
    have hur := SchedProofs.queued_rob I (Proofs.IssueQueue.mem_queued.2 ⟨y, hu⟩)
    have hle := ho u.id hur
    have hne : u.id ≠ x.id := by
      intro e
      have hnd : ((queued (s.sc.iq q)).map (·.id)).Nodup := by
        rw [List.nodup_iff_count]
        intro w
        by_cases hw : w ∈ robIds k.sc.sp s.sc.sp
        · have := I.once w hw q
          split at this <;> omega
        · rw [List.count_eq_zero.2]
          · omega
          · intro hm
            obtain ⟨z, hz, rfl⟩ := List.mem_map.1 hm
            exact hw (SchedProofs.queued_rob I hz)
      have := slot_inj hnd hu hi e
      subst this
      exact hg ⟨_, hy⟩
    obtain ⟨p', _, _, h1 | h1⟩ := C121_oldest hk hs hp c hy hu hi hrd hcap (by omega)
    · exact hg ⟨_, h1⟩
    · rw [hfu] at h1; cases h1

/-- C124: nothing overtakes the oldest instruction for ever: with the age policy, an operation of the oldest instruction that does
not wait for its own load is issued in any cycle without squash in which the units accept work, if the queue has a port for it. -/
theorem C124_oldest_issues (hk : Good k.sc.sp) (ha : Alu k) (h : Progress.Reach k s) {q : Iq} {x : Uop n} (hx : x ∈ queued (s.sc.iq q))
    (ho : ∀ j ∈ robIds k.sc.sp s.sc.sp, x.id ≤ j)
    (hm : ∀ m, part s.sc x.id q = some m → m.src1FromDest = true → s.sc.ann x.id = true)
    (hp : k.sc.policy q = true) (hc : ∃ p ∈ k.sc.ports q, p.cap x.op = true) (c : Sched.Cyc n)
    (hf : flush s.sc.sp (Sched.hw k.sc s.sc c) = false) (hmi : s.sc.sp.idu.latch.mispred = false)
    (hfu : ∀ p o, c.fuReady p o = true) : x ∈ Sched.issued k.sc s.sc c q :=
  oldest_issues hk ha h hx ho (C124_oldest_ready hk ha h hx ho hm) hp hc c hf hmi hfu

/-- The operation of an instruction that writes its destination. -/
theorem writer {d : DecInst} (hd : d.destEn = true) : ∃ m ∈ decompose d, m.inst.destEn = true ∧ m.src1FromDest = false := by
  unfold decompose
  cases ht : d.type <;> simp [hd]
  split
  · simp
  · split <;> simp

/-- C124: no deadlock: if an operation is in a queue, then an operation of the same or an older instruction is ready to be issued, or a result of such an
instruction is on its way: its operation has been issued and it is counting down its latency, or it is with the memory unit. -/
theorem C124_no_deadlock (hk : Good k.sc.sp) (ha : Alu k) (h : Progress.Reach k s) {q : Iq} {x : Uop n} (hx : x ∈ queued (s.sc.iq q)) :
    (∃ q', ∃ y ∈ queued (s.sc.iq q'), y.id ≤ x.id ∧ ready y) ∨
    ∃ j ∈ robIds k.sc.sp s.sc.sp, j ≤ x.id ∧ s.sc.ann j = false ∧
      OnWay k s j := by
  obtain ⟨_, hr, bw, _, _, _, _, I, W⟩ := WakerProofs.reach hk ha (base h)
  -- a producer that has not been announced: its operation is in a queue, or the result is on its way
  have prod : ∀ j ∈ robIds k.sc.sp s.sc.sp, (s.sc.inst j).dec.destEn = true → s.sc.ann j = false →
      (∃ q' m, ∃ y ∈ queued (s.sc.iq q'), y.id = j ∧ part s.sc j q' = some m ∧ m.src1FromDest = false) ∨
      OnWay k s j := by
    intro j hj hd hn
    have whr : ∀ m ∈ decompose (s.sc.inst j).dec, j ∉ s.sc.out m.iq → ∃ y ∈ queued (s.sc.iq m.iq), y.id = j := by
      intro m hm hno
      have := I.once j hj m.iq
      rw [OooProofs.part_mem hm, if_pos (show (some m).isSome = true from rfl), List.count_eq_zero.2 hno] at this
      exact List.mem_map.1 (List.count_pos_iff.1 (by omega : 0 < ((queued (s.sc.iq m.iq)).map (·.id)).count j))
    have memory : (s.sc.inst j).dec.type = .load ∨ (s.sc.inst j).dec.type = .amo →
        (∃ q' m, ∃ y ∈ queued (s.sc.iq q'), y.id = j ∧ part s.sc j q' = some m ∧ m.src1FromDest = false) ∨ OnWay k s j := fun ht => by
      obtain ⟨m, hm, h1, h2⟩ := writer hd
      by_cases ho : j ∈ s.sc.out m.iq
      · exact .inr (.inr ⟨ht, m.iq, m, OooProofs.part_mem hm, h1, ho⟩)
      · obtain ⟨y, hy, e⟩ := whr m hm ho
        exact .inl ⟨m.iq, m, y, hy, e, OooProofs.part_mem hm, h2⟩
    rcases dest_from (W.plain j hj) hd with ht | ht | ⟨m, hm⟩
    · exact memory (.inl ht)
    · exact memory (.inr ht)
    · obtain ⟨a1, a2, _⟩ := W.ann j hj m hm
      by_cases ho : j ∈ s.sc.out .int
      · refine .inr (.inl ⟨m, hm, a1.2 ho, ?_⟩)
        refine Nat.le_of_not_lt fun hlt => ?_
        rw [a2.2 hlt] at hn; cases hn
      · obtain ⟨y, hy, e⟩ := whr m hm.1 (by rw [hm.2.2]; exact ho)
        have hns : m.src1FromDest = false := by
          cases hx : m.src1FromDest with
          | false => rfl
          | true =>
            exfalso
            have := std_of hm.1 hx
            rw [hm.2.2] at this; cases this
        exact .inl ⟨m.iq, m, y, hy, e, OooProofs.part_mem hm.1, hns⟩
  -- operations that do not wait for their own instruction
  have main : ∀ N, ∀ {q : Iq} {x : Uop n}, x ∈ queued (s.sc.iq q) → x.id < N →
      (∀ m, part s.sc x.id q = some m → m.src1FromDest = false) →
      (∃ q', ∃ y ∈ queued (s.sc.iq q'), y.id ≤ x.id ∧ ready y) ∨
      ∃ j ∈ robIds k.sc.sp s.sc.sp, j ≤ x.id ∧ s.sc.ann j = false ∧
        OnWay k s j := by
    intro N
    induction N with
    | zero => intro q x _ hlt; omega
    | succ N ih =>
      intro q x hx hlt hm
      by_cases hrd : ready x
      · exact .inl ⟨q, x, hx, Nat.le_refl _, hrd⟩
      · obtain ⟨m, h1, h2⟩ := C124_waits hk ha h hx
        obtain ⟨b, p, hw⟩ : ∃ b p, waits x b p := by
          refine Classical.byContradiction fun hno => hrd fun b p hw => hno ⟨b, p, hw⟩
        obtain ⟨j, hj, hf, hn⟩ := (h2 b).1 ⟨p, hw⟩
        have hjx : j < x.id := by
          have := hf.2.2
          rw [if_neg (by rw [hm m h1]; simp)] at this
          exact this
        rcases prod j hj hf.1 hn with ⟨q', m', y, hy, e, e1, e2⟩ | hd
        · subst e
          rcases ih hy (by omega) (fun m'' hm'' => by rw [e1, Option.some.injEq] at hm''; rw [← hm'']; exact e2) with
            ⟨q2, z, hz, hle, hz2⟩ | ⟨i, hi, hle, hi2⟩
          · exact .inl ⟨q2, z, hz, by omega, hz2⟩
          · exact .inr ⟨i, hi, by omega, hi2⟩
        · exact .inr ⟨j, hj, by omega, hn, hd⟩
  by_cases hrd : ready x
  · exact .inl ⟨q, x, hx, Nat.le_refl _, hrd⟩
  · obtain ⟨m, h1, h2⟩ := C124_waits hk ha h hx
    obtain ⟨b, p, hw⟩ : ∃ b p, waits x b p := by
      refine Classical.byContradiction fun hno => hrd fun b p hw => hno ⟨b, p, hw⟩
    obtain ⟨j, hj, hf, hn⟩ := (h2 b).1 ⟨p, hw⟩
    have hjx : j ≤ x.id := by
      have := hf.2.2
      split at this
      · exact Nat.le_of_eq this.1
      · exact Nat.le_of_lt this
    rcases prod j hj hf.1 hn with ⟨q', m', y, hy, e, e1, e2⟩ | hd
    · subst e
      rcases main _ hy (Nat.lt_succ_self _) (fun m'' hm'' => by rw [e1, Option.some.injEq] at hm''; rw [← hm'']; exact e2) with
        ⟨q2, z, hz, hle, hz2⟩ | ⟨i, hi, hle, hi2⟩
      · exact .inl ⟨q2, z, hz, by omega, hz2⟩
      · exact .inr ⟨i, hi, by omega, hi2⟩
    · exact .inr ⟨j, hj, hjx, hn, hd⟩

end

/-! ### A concrete run

The program of `WakerRun`: the multiplication `0`, the addition `1` that reads its result, and so on. -/

namespace ProgressRun
open WakerRun

def ok (s : S) (c : Waker.Cyc 4) : Bool :=
  WakerRun.ok s c && (retired s.sc.sp (Sched.hw kw.sc s.sc ⟨c.hw, c.fuReady⟩)).all fun v => c.hw.intReq || Rob.isExc v ||
    !(s.sc.inst v.id).dec.destEn || !(decide ((s.sc.inst v.id).dec.type = .load) || decide ((s.sc.inst v.id).dec.type = .amo)) ||
    s.sc.ann v.id || decide ((s.sc.inst v.id).destPreg ∈ c.slow)

theorem ok_sound {s : S} {c : Waker.Cyc 4} (h : ok s c = true) : Progress.Valid kw s c := by
  unfold ok at h
  rw [Bool.and_eq_true, List.all_eq_true] at h
  refine ⟨WakerRun.ok_sound h.1, fun v hv h1 h2 h3 h4 => ?_⟩
  have := h.2 v hv
  rw [h1, h2, h3] at this
  simp only [Bool.or_eq_true, Bool.not_eq_true', decide_eq_true_eq, Bool.or_eq_false_iff, decide_eq_false_iff_not] at this
  rcases this with ((((h | h) | h) | h) | h) | h
  · cases h
  · cases h
  · cases h
  · rcases h4 with h4 | h4
    · exact absurd h4 h.1
    · exact absurd h4 h.2
  · exact .inl h
  · exact .inr h

def drive (s : S) : List (Waker.Cyc 4) → Option S
  | [] => some s
  | c :: l => if ok s c then (Waker.step kw s c).bind fun t => drive t l else none

theorem drive_reach : ∀ (l : List (Waker.Cyc 4)) {s t : S}, Progress.Reach kw s → drive s l = some t → Progress.Reach kw t
  | [], _, _, h, e => by cases e; exact h
  | c :: l, s, t, h, e => by
    rw [drive] at e
    split at e
    · rename_i hk
      obtain ⟨r, h1, h2⟩ := Option.bind_eq_some_iff.1 e
      exact drive_reach l (.step c h (ok_sound hk) h1) h2
    · cases e

def run (l : List (Waker.Cyc 4)) : Option S := drive (Waker.init 4 kw) l

/-- The operations in the queues and their waiting sources; the instructions in the reorder buffer not announced. -/
def look (s : S) : List (Nat × List (Bool × Nat)) × List Nat × List Nat :=
  ((SchedRun.qs.flatMap fun q => queued (s.sc.iq q)).map (fun x => (x.id, ([false, true].filter fun b => (x.src b).en && (x.src b).busy).map
    fun b => (b, (x.src b).preg))), robIds kw.sc.sp s.sc.sp, (robIds kw.sc.sp s.sc.sp).filter fun u => !s.sc.ann u)

/-- `amoadd.w x1,x6,(x6)`, `addi x1,x0,1`. -/
def amos : List (Waker.Cyc 4) := [fetch 0x006320af 0x00100093]

/-- `lw x9,0(x1)`, `add x4,x9,x9`. -/
def loads : List (Waker.Cyc 4) := [fetch 0x0000a483 0x00948233]

/-- The addition `1` waits for the multiplication `0`, `4` and `5` for the division `2`; a cycle later only for the division. -/
theorem run5 : (run (prog ++ WakerRun.idle 1)).map look = some ([(4, [(false, 35), (true, 35)]), (1, [(false, 33), (true, 33)]),
    (5, [(false, 35)])], [0, 1, 2, 3, 4, 5], [0, 1, 2, 3, 4, 5]) := by decide +kernel

theorem run6 : (run (prog ++ WakerRun.idle 2)).map look = some ([(4, [(false, 35), (true, 35)]), (1, []), (5, [(false, 35)]), (7, []), (6, []),
    (7, [])], [0, 1, 2, 3, 4, 5, 6, 7], [1, 2, 3, 4, 5, 6, 7]) := by decide +kernel

/-- The data operation of the atomic waits for its own load, though it is the oldest; then it is issued. -/
theorem amo4 : (run (amos ++ WakerRun.idle 4)).map look = some ([(0, [(false, 33)])], [0, 1], [0]) := by decide +kernel

theorem amo5 : (run (amos ++ WakerRun.idle 4 ++ [quiet [] [33]])).map look = some ([(0, [])], [0, 1], []) := by decide +kernel

theorem amo6 : (run (amos ++ WakerRun.idle 4 ++ [quiet [] [33]] ++ WakerRun.idle 1)).map look = some ([], [0, 1], []) := by decide +kernel

/-- The load retires in the cycle its register is announced: what waits for it hears of it. -/
theorem load7 : (run (loads ++ WakerRun.idle 5 ++ [quiet [WholeRun.wb 0 1] [], quiet [] [33]])).map look = some ([(1, [])], [1], [1]) := by
  decide +kernel

/-- That the memory unit announces what it reports is needed: without it (the machine of C123 allows this) the addition waits for
ever for a load that has retired. -/
example : (run (loads ++ WakerRun.idle 5 ++ [quiet [WholeRun.wb 0 1] [], quiet [] []])).isNone = true ∧
    (WakerRun.run (loads ++ WakerRun.idle 5 ++ [quiet [WholeRun.wb 0 1] [], quiet [] []])).map look =
      some ([(1, [(false, 33), (true, 33)])], [1], [1]) := by
  constructor <;> decide +kernel

/-- The hypotheses of the theorems hold in the run: the load, the oldest instruction, is in its queue; the addition waits. -/
example : ∃ s x, run (loads ++ WakerRun.idle 2) = some s ∧ Progress.Reach kw s ∧ Good kw.sc.sp ∧ Alu kw ∧ x ∈ queued (s.sc.iq .ld) ∧
    (∀ j ∈ robIds kw.sc.sp s.sc.sp, x.id ≤ j) ∧ (∀ m, part s.sc x.id .ld = some m → m.src1FromDest = true → s.sc.ann x.id = true) ∧
    kw.sc.policy .ld = true ∧ (∃ p ∈ kw.sc.ports .ld, p.cap x.op = true) ∧ s.sc.sp.idu.latch.mispred = false ∧
    flush s.sc.sp (Sched.hw kw.sc s.sc ⟨(quiet [] []).hw, fun _ _ => true⟩) = false ∧
    ∃ y ∈ queued (s.sc.iq .int), waits y false 33 := by
  have h : (run (loads ++ WakerRun.idle 2)).map (fun s => (robIds kw.sc.sp s.sc.sp, s.sc.sp.idu.latch.mispred,
      flush s.sc.sp (Sched.hw kw.sc s.sc ⟨(quiet [] []).hw, fun _ _ => true⟩), (part s.sc 0 .ld).map (·.src1FromDest))) =
      some ([0, 1], false, false, some false) := by decide +kernel
  have h2 : (run (loads ++ WakerRun.idle 2)).map (fun s => ((queued (s.sc.iq .ld)).map (·.id),
      (queued (s.sc.iq .int)).map fun y => ((y.src false).en, (y.src false).busy, (y.src false).preg))) = some ([0], [(true, true, 33)]) := by
    decide +kernel
  obtain ⟨s, hs, hl⟩ := Option.map_eq_some_iff.1 h
  rw [hs, Option.map_some, Option.some.injEq] at h2
  simp only [Prod.mk.injEq] at hl h2
  obtain ⟨x, hx, hxi⟩ := List.mem_map.1 (show 0 ∈ (queued (s.sc.iq .ld)).map (·.id) by rw [h2.1]; simp)
  obtain ⟨y, hy, hyi⟩ := List.mem_map.1 (show (true, true, 33) ∈ (queued (s.sc.iq .int)).map
    fun y => ((y.src false).en, (y.src false).busy, (y.src false).preg) by rw [h2.2]; simp)
  simp only [Prod.mk.injEq] at hyi
  refine ⟨s, x, hs, drive_reach _ .init hs, SpineRun.kx_good, alu, hx, fun j _ => by rw [hxi]; omega, fun m hm hf => ?_, rfl,
    ⟨SchedRun.port 2, List.mem_singleton.2 rfl, rfl⟩, hl.2.1, hl.2.2.1, y, hy, hyi⟩
  rw [hxi] at hm
  rw [hm] at hl
  have := hl.2.2.2
  rw [Option.map_some, hf] at this
  cases this

/-- …and those of `C124_retired`: the load retires, announced in this very cycle. -/
example : ∃ s, run (loads ++ WakerRun.idle 5 ++ [quiet [WholeRun.wb 0 1] []]) = some s ∧ Progress.Valid kw s (quiet [] [33]) ∧
    Waker.wakes kw s (quiet [] [33]) = some [33] ∧
    (retired s.sc.sp (Sched.hw kw.sc s.sc (Waker.cyc (quiet [] [33]) [33]))).map (·.id) = [0] ∧ s.sc.ann 0 = false := by
  have h : (run (loads ++ WakerRun.idle 5 ++ [quiet [WholeRun.wb 0 1] []])).map (fun s => (ok s (quiet [] [33]),
      Waker.wakes kw s (quiet [] [33]), (retired s.sc.sp (Sched.hw kw.sc s.sc (Waker.cyc (quiet [] [33]) [33]))).map (·.id), s.sc.ann 0)) =
      some (true, some [33], [0], false) := by decide +kernel
  obtain ⟨s, hs, hl⟩ := Option.map_eq_some_iff.1 h
  simp only [Prod.mk.injEq] at hl
  exact ⟨s, hs, ok_sound hl.1, hl.2.1, hl.2.2.1, hl.2.2.2⟩

end ProgressRun
end Verif.Props

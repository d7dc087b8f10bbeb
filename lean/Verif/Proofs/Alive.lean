import Verif.Spec.Alive
import Verif.Props.Progress
import Verif.Props.Dispatch
/-
Lemmas for C125: what one cycle does when the reorder buffer is empty and when it is not.
-/
namespace Verif.AliveProofs
open Verif.Spine Verif.SpineProofs Verif.Alive
open Verif.Decode (Iq decompose MicroOp DecInst)
open Verif.RobQueue (insts)
open Verif.IssueWindow (queued ready)
open Verif.DispatchGroup (fired waiting)
open Verif.BranchWindow (Flight)

theorem le_ind {m : Nat} {P : ∀ n, n ≥ m → Prop} (base : P m (Nat.le_refl m))
    (succ : ∀ n (h : n ≥ m), P n h → P (n + 1) (Nat.le_succ_of_le h)) : ∀ n (h : n ≥ m), P n h := by
  intro n h
  induction n with
  | zero =>
    have : m = 0 := Nat.le_zero.1 h
    subst this; exact base
  | succ n ih =>
    by_cases hm : m = n + 1
    · subst hm; exact base
    · exact succ n (by omega) (ih (by omega))

/-! ### The reorder buffer -/

section
variable {n : Nat} {k : Cfg} {s : St n} {bw : BranchWindow.Sys n} {rw : RenWindow.Sys} {Z : List (Flight n × Sig)} {g : Nat → BitVec 3}

theorem retires (hk : Good k) (hl : Link k s bw rw Z g) (hm : s.idu.latch.mispred = false) (c : Cyc n) {v : Rob.Uop} {rest}
    (hi : insts k.L s.rob = v :: rest)
    (hc : c.intReq = true ∨ Rob.complete v = true ∧ (Rob.isFence v = true → c.storePending = false)) : retired s c ≠ [] := by
  obtain ⟨W, hW⟩ := Proofs.Rob.rinv_reach hk.lines hl.qr
  have hmi : (robIn0 s c).mispred = none := by show (if _ then _ else _) = none; rw [hm]; rfl
  cases hr : c.intReq with
  | true =>
    have := (Proofs.Rob.interrupt_fire hW (i := robIn0 s c) hi hr hmi).1
    unfold retired; rw [this]; simp
  | false =>
    rcases hc with hc | ⟨h1, h2⟩
    · rw [hr] at hc; cases hc
    · refine List.ne_nil_of_mem (Proofs.Rob.progress hW (i := robIn0 s c) hi hr hmi h1 ?_)
      cases hf : Rob.isFence v with
      | false => exact .inr (.inl rfl)
      | true => exact .inr (.inr (h2 hf))

/-- A flush comes with an instruction that retires. -/
theorem flush_retires {c : Cyc n} (hf : flush s c = true) : retired s c ≠ [] := by
  unfold flush RobQueue.flushed Rob.flushOut at hf
  unfold retired RobQueue.retired Rob.commits
  split at hf
  · rename_i kk int hd
    rw [hd]
    split at hf
    · rename_i u hu
      simp only [hu]; simp
    · cases hf
  · cases hf

theorem empty_facts (hk : Good k) (hl : Link k s bw rw Z g) (hi : insts k.L s.rob = []) (c : Cyc n) :
    s.idu.latch.mispred = false ∧ flush s c = false ∧ retired s c = [] ∧ Rob.readyOut s.rob = true ∧ Rob.emptyOut s.rob = true ∧
      Rob.stallOut s.rob = false := by
  obtain ⟨W, hW⟩ := Proofs.Rob.rinv_reach hk.lines hl.qr
  have hWe : W = [] := by
    cases W with
    | nil => rfl
    | cons r W =>
      obtain ⟨u, hu⟩ := hW.ne r (List.mem_cons_self ..)
      rw [Proofs.Rob.rinv_insts hW, Proofs.Rob.content_cons, List.append_eq_nil_iff] at hi
      have : u ∈ r.filterMap id := List.mem_filterMap.2 ⟨some u, hu, rfl⟩
      rw [hi.1] at this; cases this
  have he := (Proofs.Rob.rinv_empty hW).2 hWe
  have hrow : ∀ o ∈ s.rob.rows s.rob.deq, o = none := by
    have := hW.out 0 (by rw [hWe]; exact Nat.le_refl _) hk.lines
    rwa [Nat.add_zero, Nat.mod_eq_of_lt hW.deqLt] at this
  have hmis : s.idu.latch.mispred = false := by
    cases hm : s.idu.latch.mispred with
    | false => rfl
    | true =>
      obtain ⟨z, hz, _⟩ := hl.mis hm
      have := hl.sigs
      rw [hi] at this
      rw [List.map_nil, eq_comm, List.map_eq_nil_iff] at this
      rw [this] at hz; cases hz
  have hret : retired s c = [] := by
    obtain ⟨_, _, rest, _, hins, _⟩ := hl.split hk c
    rw [hi] at hins
    exact (List.append_eq_nil_iff.1 hins.symm).1
  refine ⟨hmis, ?_, hret, ?_, he, ?_⟩
  · cases hf : flush s c with
    | false => rfl
    | true => exact absurd hret (flush_retires hf)
  · unfold Rob.readyOut
    cases hfull : Rob.isFull s.rob with
    | false => rfl
    | true =>
      have := (Proofs.Rob.rinv_full hW).1 hfull
      rw [hWe] at this
      have := hk.lines
      simp at *; omega
  · unfold Rob.stallOut
    rw [List.any_eq_false]
    intro o ho
    rw [hrow o ho]; simp

/-! ### Dispatch -/

theorem dispatches (hk : Good k) (hl : Link k s bw rw Z g) (hi : insts k.L s.rob = []) (c : Cyc n)
    (hp : ∀ q, 0 < k.dis.ports q ∧ 0 < c.ready q) (hld : 0 < k.dis.ldPorts) (hst : 0 < k.dis.stPorts)
    (h1 : 0 < c.stqFree) (h2 : 0 < c.ldqFree) (h3 : c.ldqAllocValid 0 = true) (hw : waiting s.dis ≠ []) :
    fired (disOut k s c) ≠ [] := by
  obtain ⟨e1, e2, _, e4, e5, e6⟩ := empty_facts hk hl hi c
  cases he : waiting s.dis with
  | nil => exact absurd he hw
  | cons u t =>
    exact (Props.C24_progress hl.dr (disIn k s c) he).2 ⟨e4, e6, e2, e1, fun _ => ⟨h2, (hp _).1, hld, h3⟩, fun _ => ⟨h1, hst⟩,
      fun m _ => hp m.iq, fun _ => e5⟩

/-- What is not dispatched is still there. -/
theorem waits_on (hl : Link k s bw rw Z g) (c : Cyc n) (hf : flush s c = false) (hm : s.idu.latch.mispred = false)
    (hn : fired (disOut k s c) = []) (hw : waiting s.dis ≠ []) : disIds (step k s c) ≠ [] := by
  have := Proofs.Dispatch.step_waiting k.dis (Proofs.Dispatch.wf_reach hl.dr) (disIn k s c) hf hm
  unfold disOut at hn
  rw [hn, List.map_nil, List.nil_append] at this
  intro he
  unfold disIds at he
  rw [List.map_eq_nil_iff] at he
  have he : waiting (Dispatch.step k.dis s.dis (disIn k s c)) = [] := he
  rw [he, eq_comm, List.append_eq_nil_iff, List.map_eq_nil_iff] at this
  exact hw this.1

theorem fire_quiet (i : Dispatch.Input n) (gf : Bool) : ∀ (l : List (Dispatch.Alloc n × Bool)) (f : Bool),
    (∀ x ∈ l, x.1.valid = false ∧ x.1.robValid = false) → (Dispatch.fireGo i gf l false f).2 = false
  | [], _, _ => rfl
  | (a, ok) :: t, f, h => by
    have h0 := h (a, ok) (List.mem_cons_self ..)
    have h0 : a.valid = false ∧ a.robValid = false := h0
    simp only [Dispatch.fireGo, h0.1, h0.2, Bool.false_and, Bool.false_or, Bool.not_false, Bool.or_false]
    exact fire_quiet i gf t f fun x hx => h x (List.mem_cons_of_mem _ hx)

/-- An empty stage takes the next group. -/
theorem dis_ready (c : Cyc n) (hw : waiting s.dis = []) : (disOut k s c).ready = true := by
  have hal : ∀ (l : List (Option (Dispatch.Inst n))) kk st ld, l.filterMap id = [] →
      ∀ a ∈ Dispatch.allocGo k.dis (disIn k s c) l kk st ld, a.valid = false ∧ a.robValid = false := by
    intro l
    induction l with
    | nil => intro _ _ _ _ a ha; cases ha
    | cons o l ih =>
      intro kk st ld hl a ha
      cases o with
      | some u => simp at hl
      | none =>
        rw [Dispatch.allocGo] at ha
        rcases List.mem_cons.1 ha with rfl | ha
        · exact ⟨rfl, rfl⟩
        · exact ih _ _ _ (by simpa using hl) a ha
  have hwk : ∀ a ∈ (disOut k s c).alloc, a.valid = false ∧ a.robValid = false := by
    intro a ha
    have ha : a ∈ Dispatch.wakeGo s.dis.busy (disIn k s c).wakes [] (Dispatch.allocGo k.dis (disIn k s c) s.dis.slots 0 0 0) := ha
    obtain ⟨b, hb, e⟩ := Proofs.Dispatch.skel_mem (Proofs.Dispatch.wakeGo_skel _ _ _ _) ha
    have := hal _ _ _ _ hw b hb
    exact ⟨by rw [Proofs.Dispatch.skel_valid e.symm]; exact this.1, by rw [Proofs.Dispatch.skel_robValid e.symm]; exact this.2⟩
  show (!(Dispatch.fireGo _ _ _ false false).2) = true
  rw [fire_quiet]
  · rfl
  · rintro ⟨a, ok⟩ hx
    exact hwk a (List.of_mem_zip hx).1

/-! ### Rename -/

/-- With a free register, the first instruction is handed over. -/
theorem first_renamed (P : Nat) (fl : Nat → Nat) (spec : Nat → Nat) : ∀ (lat : List (Option (DInst n))) (h c : Nat) (prior : List (Option Ren.Inst × Nat)),
    0 < c → lat.filterMap id ≠ [] → ∃ d ∈ lat.filterMap id, ∃ x ∈ (renOut (Ren.renameLoop spec prior (lat.map (Option.map toInst))
      (Ren.allocLoop P fl h c (lat.map (Option.map toInst)))
      (Ren.validLoop false (lat.map (Option.map toInst)) (Ren.allocLoop P fl h c (lat.map (Option.map toInst))))) lat).filterMap id,
      x.ftq = d.uid
  | [], _, _, _, _, hn => absurd rfl hn
  | none :: lat, h, c, prior, hc, hn => by
    obtain ⟨d, hd, x, hx, e⟩ := first_renamed P fl spec lat h c (prior ++ [(none, 0)]) hc (by simpa using hn)
    refine ⟨d, by simpa using hd, x, ?_, e⟩
    simp only [List.map_cons, Option.map_none, Ren.allocLoop, Ren.validLoop, Ren.renameLoop, renOut, Option.bind_none, List.filterMap_cons, id]
    exact hx
  | some d :: lat, h, c, prior, hc, _ => by
    refine ⟨d, by simp, ?_⟩
    simp only [List.map_cons, Option.map_some, Ren.allocLoop, hc, decide_true, Bool.and_true]
    cases hd : (toInst d).destEn with
    | true =>
      simp only [if_true, Ren.validLoop, hd, Bool.not_false, Bool.and_true, Ren.renameLoop, renOut, Option.bind_some]
      exact ⟨_, by simp only [List.filterMap_cons, id]; exact List.mem_cons_self .., rfl⟩
    | false =>
      simp only [Bool.false_eq_true, if_false, Ren.validLoop, hd, Bool.not_false, Bool.and_true, if_true, Ren.renameLoop, renOut, Option.bind_some]
      exact ⟨_, by simp only [List.filterMap_cons, id]; exact List.mem_cons_self .., rfl⟩

theorem renames (hk : Good k) (h : Spine.Reach k s) (hl : Link k s bw rw Z g) (hi : insts k.L s.rob = []) (hw : waiting s.dis = []) (hP : k.A < k.P) (c : Cyc n)
    (hn : latIds s ≠ []) : ∃ u ∈ latIds s, u ∈ disIds (step k s c) := by
  obtain ⟨e1, e2, _⟩ := empty_facts hk hl hi c
  have hfree : 0 < Ring.ringDist k.P s.regs.head s.regs.tail := by
    have hp := (Props.C106_registers hk h).length_eq
    have hr : renamed k s = [] := by unfold renamed robIds disIds; rw [hi, hw]; rfl
    rw [hr] at hp
    have hf : (RenWindow.free k.P s.regs).length = Ring.ringDist k.P s.regs.head s.regs.tail := by
      unfold RenWindow.free; rw [Ring.ring_length]
    simp only [List.length_append, List.length_map, List.length_range, hf, RenWindow.pregs, List.filter_nil, List.map_nil,
      List.length_nil] at hp
    omega
  obtain ⟨d, hd, x, hx, e⟩ := first_renamed k.P s.regs.fl s.regs.spec s.lat s.regs.head _ [] hfree (by
    intro he; apply hn; unfold latIds; rw [he]; rfl)
  refine ⟨d.uid, List.mem_map_of_mem (f := fun d : DInst n => d.uid) hd, ?_⟩
  have hsl : (step k s c).dis.slots = (renOut (renSlots k s) s.lat).map (Option.map (Dispatch.scrub (disIn k s c))) := by
    show (if ((disIn k s c).flush || (disIn k s c).mispred) = true then _ else if (disOut k s c).ready = true then _ else _) = _
    have : ((disIn k s c).flush || (disIn k s c).mispred) = false := by
      show (flush s c || s.idu.latch.mispred) = false
      rw [e1, e2]; rfl
    rw [this, dis_ready c hw]; rfl
  unfold disIds waiting
  rw [hsl]
  obtain ⟨o, ho, ho2⟩ := List.mem_filterMap.1 hx
  have ho2 : o = some x := ho2
  subst ho2
  refine List.mem_map.2 ⟨Dispatch.scrub (disIn k s c) x, List.mem_filterMap.2 ⟨_, List.mem_map_of_mem ho, rfl⟩, e⟩

/-! ### Decode -/

theorem rename_none (spec : Nat → Nat) : ∀ (lat : List (Option (DInst n))) (as : List (Bool × Nat)) (vs : List Bool) (prior : List (Option Ren.Inst × Nat)),
    lat.filterMap id = [] → ∀ sl ∈ Ren.renameLoop spec prior (lat.map (Option.map toInst)) as vs, sl.inst.isNone = true
  | [], _, _, _, _, sl, h => by simp [Ren.renameLoop] at h
  | some d :: lat, _, _, _, hn, _, _ => by simp at hn
  | none :: lat, [], _, _, _, sl, h => by simp [Ren.renameLoop] at h
  | none :: lat, _ :: _, [], _, _, sl, h => by simp [Ren.renameLoop] at h
  | none :: lat, a :: as, v :: vs, prior, hn, sl, h => by
    simp only [List.map_cons, Option.map_none, Ren.renameLoop] at h
    rcases List.mem_cons.1 h with rfl | h
    · rfl
    · exact rename_none spec lat as vs _ (by simpa using hn) sl h

theorem first_decoded (run : BitVec n) : ∀ (es : List (Option Bool)) (t : Nat) (tags : List Nat), es.filterMap id ≠ [] →
    ∃ sl ∈ Idu.decodeLoop es (t :: tags) run, sl.valid = true
  | [], _, _, h => absurd rfl h
  | none :: es, t, tags, h => by
    obtain ⟨sl, h1, h2⟩ := first_decoded run es t tags (by simpa using h)
    exact ⟨sl, by rw [Idu.decodeLoop]; exact List.mem_cons_of_mem _ h1, h2⟩
  | some false :: es, t, tags, _ => ⟨_, by rw [Idu.decodeLoop]; exact List.mem_cons_self .., rfl⟩
  | some true :: es, t, tags, _ => ⟨_, by rw [Idu.decodeLoop]; exact List.mem_cons_self .., rfl⟩

theorem decodes (hk : Good k) (hl : Link k s bw rw Z g) (hi : insts k.L s.rob = []) (hw : waiting s.dis = [])
    (hn : 1 < n) (hb : 0 < k.maxBr) (c : Cyc n) (hlat : latIds s = []) (hib : c.ib.filterMap id ≠ []) : s.next < (step k s c).next := by
  obtain ⟨e1, e2, _⟩ := empty_facts hk hl hi c
  have hlat : s.lat.filterMap id = [] := List.map_eq_nil_iff.1 hlat
  have hwin : bw.win = [] := by
    have hz : Z = [] := by
      have := hl.sigs
      rw [hi, List.map_nil, eq_comm, List.map_eq_nil_iff] at this
      exact this
    rw [hl.win, hz, hw, hlat]; rfl
  have hready : renReady k s c = true := by
    unfold renReady Ren.readyOut
    have hm : (mispred s).isSome = false := by rw [mispred_isSome, e1]
    rw [hm, e2]
    simp only [Bool.or_false, Bool.not_false, Bool.and_true, List.all_eq_true, Bool.or_eq_true]
    intro sl hsl
    exact .inr (rename_none _ _ _ _ _ hlat sl hsl)
  have htag : s.idu.tagFree 1 = true := by
    have hc := hl.core
    rw [hc.free]
    refine ⟨by omega, hn, ?_⟩
    cases hnow : s.idu.now.getLsbD 1 with
    | false => rfl
    | true =>
      obtain ⟨f, hf, _⟩ := (hc.own 1).1 hnow
      rw [hwin] at hf; cases hf
  have hal : ∃ t ts, Idu.allocTags s.idu k.maxBr = t :: ts := by
    unfold Idu.allocTags
    have : 1 ∈ (List.range n).filter s.idu.tagFree := List.mem_filter.2 ⟨List.mem_range.2 hn, htag⟩
    cases hf : (List.range n).filter s.idu.tagFree with
    | nil => rw [hf] at this; cases this
    | cons a l =>
      obtain ⟨b, hb'⟩ := Nat.exists_eq_succ_of_ne_zero (Nat.ne_of_gt hb)
      rw [hb']; exact ⟨a, l.take b, rfl⟩
  obtain ⟨t, ts, hal⟩ := hal
  have hes : ((decoded c).map (Option.map isBranch)).filterMap id ≠ [] := by
    intro he
    apply hib
    rw [List.filterMap_eq_nil_iff] at he ⊢
    intro o ho
    cases o with
    | none => rfl
    | some x =>
      have := he (some (isBranch (Decode.decodeEntry x.1 x.2))) (by
        unfold decoded
        rw [List.map_map]
        exact List.mem_map.2 ⟨some x, ho, rfl⟩)
      cases this
  obtain ⟨sl, h1, h2⟩ := first_decoded (s.idu.now &&& ~~~s.idu.latch.clear) _ t ts hes
  show s.next < s.next + (Idu.fired s.idu (decSlots k s c) (renReady k s c) (flush s c)).length
  have : 0 < (Idu.fired s.idu (decSlots k s c) (renReady k s c) (flush s c)).length := by
    unfold Idu.fired
    rw [hready, e1, e2]
    simp only [Bool.or_self, Bool.not_true, Bool.false_eq_true, if_false]
    refine List.length_pos_of_mem (a := sl) (List.mem_filter.2 ⟨?_, h2⟩)
    unfold decSlots Idu.combDecode
    rw [hal]; exact h1
  omega
end
end Verif.AliveProofs

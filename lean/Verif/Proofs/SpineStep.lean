import Verif.Proofs.Spine
/-
One cycle of the in-order back end: the reorder buffer and dispatch get admissible inputs.
-/
namespace Verif.SpineProofs
open Verif.Spine
open Verif.Decode (DecInst decodeEntry)
open Verif.Dispatch (expectMask)
open Verif.BranchWindow (Flight)
open Verif.RenWindow (Entry toEntry entries)
open Verif.RobQueue (insts sig)
open Verif.DispatchGroup (waiting)

variable {n : Nat}

section
variable {k : Cfg} {s : St n} {bw : BranchWindow.Sys n} {rw : RenWindow.Sys} {Z : List (Flight n × Sig)} {g : Nat → BitVec 3}
variable {c : Cyc n}

theorem flush_eq (k : Cfg) (s : St n) (c : Cyc n) : flush s c = RobQueue.flushed s.rob (robIn k s c) := rfl
theorem retired_eq (k : Cfg) (s : St n) (c : Cyc n) : retired s c = RobQueue.retired s.rob (robIn k s c) := rfl

/-- Nothing is dispatched in a flush or misprediction cycle or into a full buffer. -/
theorem blocked (h : flush s c = true ∨ s.idu.latch.mispred = true ∨ Rob.readyOut s.rob = false) :
    (∀ o ∈ fireRow (disOut k s c), o = none) ∧ DispatchGroup.fired (disOut k s c) = [] := by
  have hf : ∃ m, (disOut k s c).fire = List.replicate m false := by
    refine ⟨_, Proofs.Dispatch.fireGo_blocked (disIn k s c) _ ?_ _ _ _⟩
    rcases h with h | h | h
    · left; show (flush s c || s.idu.latch.mispred || Rob.stallOut s.rob) = true; simp [h]
    · left; show (flush s c || s.idu.latch.mispred || Rob.stallOut s.rob) = true; simp [h]
    · right; exact h
  obtain ⟨m, hm⟩ := hf
  have hz : ∀ x ∈ (disOut k s c).alloc.zip (disOut k s c).fire, x.2 = false := by
    intro x hx
    have := (List.of_mem_zip (a := x.1) (b := x.2) hx).2
    rw [hm] at this
    exact (List.mem_replicate.1 this).2
  constructor
  · intro o ho
    obtain ⟨x, hx, rfl⟩ := List.mem_map.1 ho
    simp [hz x hx]
  · unfold DispatchGroup.fired
    rw [List.filterMap_eq_nil_iff]
    intro x hx
    simp [hz x hx]

theorem mis_quiet (h : Link k s bw rw Z g) (hL : 0 < k.L) (hm : s.idu.latch.mispred = true) :
    flush s c = false ∧ retired s c = [] := by
  obtain ⟨W, hW⟩ := Proofs.Rob.rinv_reach hL h.qr
  rcases Proofs.Rob.retire_cases hW (robIn0 s c) with e | e | ⟨_, _, e⟩
  · exact ⟨e.2, e.1⟩
  · have := e.2.2.2.2; simp [robIn0, hm] at this
  · have := e.2.2.2.2; simp [robIn0, hm] at this

theorem rob_valid (hk : Good k) (h : Link k s bw rw Z g) (c : Cyc n) :
    RobQueue.Valid k.dis.banks k.L s.rob (robIn k s c) := by
  have hwf := Proofs.Dispatch.wf_reach h.dr
  have hal : (disOut k s c).alloc.length = k.dis.banks := by
    have := Proofs.Dispatch.slots_length k.dis s.dis (disIn k s c)
    rw [h.disLen] at this; exact this
  have hfl : (disOut k s c).fire.length = k.dis.banks := by
    have := Proofs.Dispatch.fire_length k.dis hwf (disIn k s c)
    rw [h.disLen] at this; exact this
  refine ⟨?_, ?_, ?_, ?_⟩
  · show (fireRow (disOut k s c)).length = _
    rw [fireRow, List.length_map, List.length_zip, hal, hfl, Nat.min_self]
  · intro b u hb
    have hb : (fireRow (disOut k s c))[b]? = some (some u) := hb
    rw [fireRow, List.getElem?_map] at hb
    cases hx : ((disOut k s c).alloc.zip (disOut k s c).fire)[b]? with
    | none => rw [hx] at hb; cases hb
    | some x =>
      rw [hx, Option.map_some, Option.some.injEq] at hb
      rw [List.getElem?_zip_eq_some] at hx
      have hlt : b < k.dis.banks := by
        have := (List.getElem?_eq_some_iff.1 hx.1).1
        rw [hal] at this; exact this
      split at hb
      · have hu := Option.some.inj hb
        have := Proofs.Dispatch.robIdx_go k.dis (disIn k s c) s.dis.busy (disIn k s c).wakes s.dis.slots 0 0 0 [] b x.1 hx.1
        obtain ⟨m, hm⟩ := hk.banks
        rw [Nat.zero_add, hm, Nat.mul_comm, ← Nat.two_pow_add_eq_or_of_lt (by rw [← hm]; exact hlt)] at this
        rw [← hu]
        refine ⟨?_, this.2⟩
        show x.1.robIdx = s.rob.enq * k.dis.banks + b
        rw [this.1, hm, Nat.mul_comm]; rfl
      · cases hb
  · intro hf o ho
    exact (blocked (k := k) (.inr (.inr (by simp [Rob.readyOut, hf])))).1 o ho
  · intro r hr
    have hm : s.idu.latch.mispred = true ∧ s.redirect = r := by
      have hr : (if s.idu.latch.mispred then some s.redirect else none) = some r := hr
      split at hr
      · exact ⟨by assumption, Option.some.inj hr⟩
      · cases hr
    refine ⟨?_, fun o ho => (blocked (k := k) (.inr (.inl hm.1))).1 o ho⟩
    obtain ⟨z, hz, _, he⟩ := h.mis hm.1
    obtain ⟨u, hu, hsu⟩ := List.mem_map.1 (show z.2 ∈ (insts k.L s.rob).map sig by
      rw [h.sigs]; exact List.mem_map_of_mem hz)
    exact ⟨u, hu, by rw [← hm.2, ← he, ← hsu]; rfl⟩

theorem Link.slots (_h : Link k s bw rw Z g) :
    (renSlots k s).map Ren.Slot.inst = s.lat.map (Option.map toInst) ∧ Core.Prefix (renSlots k s) :=
  ⟨Proofs.Ren.renameGroup_inst _ _, Core.prefix_rename _ _ _ _ _⟩

theorem dis_valid (hk : Good k) (h : Link k s bw rw Z g) (c : Cyc n) : DispatchGroup.Valid s.dis (disIn k s c) := by
  obtain ⟨h1, h2⟩ := h.slots
  obtain ⟨_, _, e3, e4, _⟩ := group_facts _ _ h1 h2
  refine ⟨?_, ?_⟩
  · show (renOut (renSlots k s) s.lat).length = _
    rw [e4, h.latLen, h.disLen]
  · intro u hu hd
    have hm : u ∈ (renOut (renSlots k s) s.lat).filterMap id := List.mem_filterMap.2 ⟨_, hu, rfl⟩
    rw [e3] at hm
    obtain ⟨x, hx, rfl⟩ := List.mem_map.1 hm
    have hlat : x.1 ∈ s.lat.filterMap id := by
      obtain ⟨_, _, _, _, e5, _⟩ := group_facts _ _ h1 h2
      rw [e5]; exact List.mem_append_left _ (List.mem_map_of_mem hx)
    obtain ⟨o, ho, he⟩ := List.mem_filterMap.1 hlat
    have he : o = some x.1 := he
    subst he
    have hS := Proofs.Ren.sinv_reach (by have := hk.regs; omega) hk.pregs h.rr
    have := (hS.wf (toInst x.1) (by rw [h.latch]; exact List.mem_map.2 ⟨_, ho, rfl⟩)).1 hd
    have h0 : 0 < x.1.dec.destAreg := this.1
    show x.1.dec.destAreg ≠ 0
    omega

/-- The retired instructions are the oldest ones of the window. -/
theorem Link.split (hk : Good k) (h : Link k s bw rw Z g) (c : Cyc n) :
    ∃ Z1 Z2 rest, Z = Z1 ++ Z2 ∧ insts k.L s.rob = retired s c ++ rest ∧ Z1.map Prod.snd = (retired s c).map sig ∧
      Z2.map Prod.snd = rest.map sig ∧ Z1.length = (retired s c).length ∧
      (insts k.L (step k s c).rob).map sig =
        if flush s c then [] else if s.idu.latch.mispred then (RobQueue.upTo s.redirect (insts k.L s.rob)).map sig
        else rest.map sig ++ (DispatchGroup.fired (disOut k s c)).map (fun a => sig (toUop a)) := by
  obtain ⟨W, hW⟩ := Proofs.Rob.rinv_reach hk.lines h.qr
  obtain ⟨W', hW', rest, h1, _, h3⟩ := Proofs.Rob.rinv_step hW (robIn k s c) (rob_valid hk h c)
  rw [← Proofs.Rob.rinv_insts hW, ← retired_eq] at h1
  have hs := h.sigs
  rw [h1, List.map_append] at hs
  obtain ⟨Z1, Z2, hz, hz1, hz2⟩ := List.map_eq_append_iff.1 hs.symm
  refine ⟨Z1, Z2, rest, hz, h1, hz1, hz2, ?_, ?_⟩
  · have := congrArg List.length hz1
    simpa using this
  · rw [← Proofs.Rob.rinv_insts hW', ← Proofs.Rob.rinv_insts hW, ← flush_eq] at h3
    show (insts k.L (Rob.step k.dis.banks k.L s.rob (robIn k s c))).map sig = _
    rw [h3]
    split
    · rfl
    · show (match (if s.idu.latch.mispred then some s.redirect else none) with
        | some r => _ | none => _) = _
      cases hm : s.idu.latch.mispred with
      | true => simp
      | false =>
        simp only [Bool.false_eq_true, if_false]
        show _ ++ (RobQueue.dispatched (robIn k s c)).map sig = _
        rw [RobQueue.dispatched]
        show _ ++ ((fireRow (disOut k s c)).filterMap id).map sig = _
        rw [row_fired, List.map_map]; rfl

/-- All retired instructions agree on whether they are exceptions; an exception or interrupt flushes. -/
theorem exc_facts (hk : Good k) (h : Link k s bw rw Z g) (c : Cyc n) :
    (∀ u ∈ retired s c, Rob.isExc u = (retired s c).any Rob.isExc) ∧
    ((retired s c).any Rob.isExc = true ∨ interrupt s c = true → flush s c = true) := by
  obtain ⟨W, hW⟩ := Proofs.Rob.rinv_reach hk.lines h.qr
  have hie : ∀ u, Rob.isExc u = true → Rob.isFlush u = true := by
    intro u hu; simp [Rob.isFlush, hu]
  have hint : interrupt s c = true → flush s c = true := by
    intro hi
    unfold interrupt at hi
    rcases Proofs.Rob.arbitrate_cases (s.rob.rows s.rob.deq) (Rob.isEmpty s.rob) (robIn0 s c).mispred.isSome
      (robIn0 s c).frontStall (robIn0 s c).intReq (robIn0 s c).storePending with e | e | ⟨b, u, int, e1, e2, _⟩
    · change Rob.decision s.rob (robIn0 s c) = _ at e; rw [e] at hi; cases hi
    · have e := e.1; change Rob.decision s.rob (robIn0 s c) = _ at e; rw [e] at hi; cases hi
    · change Rob.decision s.rob (robIn0 s c) = _ at e1
      rw [e1] at hi
      have hi : int = true := hi
      have := (Proofs.Rob.firstValid_some e2).1
      unfold flush RobQueue.flushed
      rw [e1]; simp [Rob.flushOut, this, hi]
  rcases Proofs.Rob.retire_cases hW (robIn0 s c) with e | e | ⟨u, _, e1, e2, e3, e4, e5⟩
  · have e1 : retired s c = [] := e.1
    rw [e1]
    exact ⟨fun u hu => (by cases hu), fun h => h.elim (fun h => by simp at h) hint⟩
  · have hall : ∀ u ∈ retired s c, Rob.isExc u = false := by
      intro u hu
      cases hx : Rob.isExc u with
      | false => rfl
      | true => have := (e.2.2.2.1 u hu).2; rw [hie u hx] at this; cases this
    have hany : (retired s c).any Rob.isExc = false := by
      rw [List.any_eq_false]; intro u hu; rw [hall u hu]; simp
    rw [hany]
    exact ⟨hall, fun h => h.elim (fun h => by cases h) hint⟩
  · have e1 : retired s c = [u] := e1
    rw [e1]
    refine ⟨fun v hv => by rw [List.mem_singleton.1 hv]; simp, fun h => h.elim (fun h => ?_) hint⟩
    have hx : Rob.isExc u = true := by simpa using h
    show RobQueue.flushed s.rob (robIn0 s c) = true
    rw [e4, hie u hx]; rfl

/-- What rename sees retiring. -/
theorem commits_eq (hk : Good k) (h : Link k s bw rw Z g) (c : Cyc n) :
    (rw.win.take (retired s c).length).map (RenWindow.toCommit ((retired s c).any Rob.isExc)) =
      (retired s c).map (commitOf s) := by
  obtain ⟨Z1, Z2, rest, hz, _, h1, _, hl, _⟩ := h.split hk c
  have hx := (exc_facts hk h c).1
  rw [h.rwin, hz, List.map_append, List.append_assoc, List.take_left' (by simpa using hl), List.map_map]
  generalize (retired s c).any Rob.isExc = e at hx
  have key : ∀ (l : List (Flight n × Sig)) (us : List Rob.Uop), l.map Prod.snd = us.map sig → (∀ z ∈ l, z.1.seq = z.2.1) →
      (∀ u ∈ us, Rob.isExc u = e) →
      l.map (RenWindow.toCommit e ∘ fun z => ent s.info z.1) = us.map (commitOf s) := by
    intro l
    induction l with
    | nil => intro us hs _ _; cases us with
      | nil => rfl
      | cons _ _ => simp at hs
    | cons z l ih =>
      intro us hs hq he
      cases us with
      | nil => simp at hs
      | cons u us =>
        simp only [List.map_cons, List.cons.injEq] at hs ⊢
        refine ⟨?_, ih us hs.2 (fun z hz => hq z (List.mem_cons_of_mem _ hz)) (fun v hv => he v (List.mem_cons_of_mem _ hv))⟩
        have hid : z.1.seq = u.id := by rw [hq z List.mem_cons_self, hs.1]; rfl
        simp only [Function.comp_apply, RenWindow.toCommit, ent, commitOf, hid, he u List.mem_cons_self]
  exact key Z1 _ h1 (fun z hz1 => (h.j z (by rw [hz]; exact List.mem_append_left _ hz1)).seq) hx

/-- Decode offers tags nobody in flight owns, and masks without resolved branches. -/
theorem Link.decode (h : Link k s bw rw Z g) :
    (∀ t, (s.idu.now &&& ~~~s.idu.latch.clear).getLsbD t = true → s.idu.latch.clear.getLsbD t = false) ∧
    (∀ t ∈ Idu.allocTags s.idu k.maxBr, 0 < t ∧ t < n ∧ s.idu.latch.clear.getLsbD t = false) := by
  constructor
  · intro t ht; exact ((IduProofs.andnot_iff _ _ t).1 ht).2
  · intro t ht
    have := List.mem_of_mem_take ht
    rw [List.mem_filter] at this
    have hfr := (h.core.free t).1 this.2
    refine ⟨hfr.1, hfr.2.1, ?_⟩
    cases hc : s.idu.latch.clear.getLsbD t with
    | false => rfl
    | true =>
      obtain ⟨z, hz, hzt, _⟩ := h.own t hfr.1 hc
      have := (h.core.own t).2 ⟨z.1, h.memZ hz, hzt⟩
      rw [hfr.2.2] at this; cases this

end
end Verif.SpineProofs

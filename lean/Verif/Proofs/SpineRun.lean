import Verif.Proofs.SpineStep
/-
One cycle of the in-order back end, seen by the closed models of decode and rename.
-/
namespace Verif.SpineProofs
open Verif.Spine
open Verif.Decode (DecInst decodeEntry)
open Verif.Dispatch (expectMask)
open Verif.BranchWindow (Flight)
open Verif.RenWindow (Entry toEntry entries)
open Verif.RobQueue (insts sig)
open Verif.DispatchGroup (waiting)

variable {n : Nat}

/-- The cycle as the branch window sees it. -/
def iB (k : Cfg) (s : St n) (c : Cyc n) : BranchWindow.Input n :=
  ⟨(decoded c).map (Option.map isBranch), renReady k s c, flush s c, if flush s c then 0 else (retired s c).length,
    if flush s c then Idu.Latch.none n else exu2id c⟩

/-- The cycle as the rename window sees it. -/
def iR (k : Cfg) (s : St n) (c : Cyc n) : RenWindow.Input :=
  { ready := (disOut k s c).ready, flush := flush s c, interrupt := interrupt s c, exc := (retired s c).any Rob.isExc
    retire := (retired s c).length, mispred := mispred s, clear := fun t => s.idu.latch.clear.getLsbD t
    dec := if renReady k s c then (number s.next (decoded c) (decSlots k s c)).map (Option.map toInst) else [] }

theorem tags_nodup {st : Idu.State n} {win next} (h : IduProofs.Core st win next) : (win.filterMap (·.tag)).Nodup := by
  have hs := h.sorted
  have hu := h.uniq
  clear h
  induction win with
  | nil => simp
  | cons f l ih =>
    rw [List.pairwise_cons] at hs
    have ihl := ih hs.2 (fun a ha b hb => hu a (List.mem_cons_of_mem _ ha) b (List.mem_cons_of_mem _ hb))
    cases ht : f.tag with
    | none => rw [List.filterMap_cons_none ht]; exact ihl
    | some t =>
      rw [List.filterMap_cons_some ht, List.nodup_cons]
      refine ⟨fun hm => ?_, ihl⟩
      obtain ⟨e, he, het⟩ := List.mem_filterMap.1 hm
      have := hu f List.mem_cons_self e (List.mem_cons_of_mem _ he) t ht het
      have := hs.1 e he
      omega

section
variable {k : Cfg} {s : St n} {bw : BranchWindow.Sys n} {rw : RenWindow.Sys} {Z : List (Flight n × Sig)} {g : Nat → BitVec 3}
variable {c : Cyc n}

theorem ready_facts (hr : renReady k s c = true) : flush s c = false ∧ s.idu.latch.mispred = false ∧
    (renSlots k s).all (fun sl => Ren.fires (disOut k s c).ready sl || sl.inst.isNone) = true := by
  unfold renReady Ren.readyOut at hr
  rw [Bool.and_eq_true, Bool.not_eq_true', Bool.or_eq_false_iff] at hr
  refine ⟨hr.2.1, ?_, hr.1⟩
  have := hr.2.2
  unfold mispred at this
  split at this
  · cases this
  · simpa using (by assumption : ¬ s.idu.latch.mispred = true)

theorem mispred_isSome (s : St n) : (mispred s).isSome = s.idu.latch.mispred := by
  unfold mispred; cases s.idu.latch.mispred <;> rfl

theorem toInst_scrub (m : BitVec n) (d : DInst n) : toInst (scrub m d) = toInst d := rfl

theorem map_scrub (m : BitVec n) (l : List (Option (DInst n))) :
    (l.map (Option.map (scrub m))).map (Option.map toInst) = l.map (Option.map toInst) := by
  rw [List.map_map]
  apply List.map_congr_left
  intro o _
  cases o <;> rfl

theorem fm_scrub (m : BitVec n) : ∀ l : List (Option (DInst n)),
    (l.map (Option.map (scrub m))).filterMap id = (l.filterMap id).map (scrub m)
  | [] => rfl
  | none :: l => fm_scrub m l
  | some d :: l => congrArg (scrub m d :: ·) (fm_scrub m l)

/-- The numbered group as it enters the branch window. -/
theorem Link.numbered (h : Link k s bw rw Z g) (c : Cyc n) :
    ((number s.next (decoded c) (decSlots k s c)).filterMap id).map (fun d => latF (scrub s.idu.latch.clear d)) =
      BranchWindow.number s.next ((decSlots k s c).filter (·.valid)) ∧
    ∀ d ∈ (number s.next (decoded c) (decSlots k s c)).filterMap id,
      some d.dec ∈ decoded c ∧ (isBranch d.dec = true → 0 < d.brId ∧ d.brId < n) := by
  obtain ⟨h1, h2⟩ := h.decode
  obtain ⟨e1, e2⟩ := number_flights s.idu.latch.clear (decoded c) (Idu.allocTags s.idu k.maxBr) _ s.next h1 h2
  exact ⟨e1, fun d hd => ⟨(e2 d hd).1, fun hb => ⟨(h2 _ ((e2 d hd).2 hb)).1, (h2 _ ((e2 d hd).2 hb)).2.1⟩⟩⟩

theorem decoded_dest {d : DecInst} (h : some d ∈ decoded c) (hd : d.destEn = true) : 0 < d.destAreg ∧ d.destAreg ≤ 32 := by
  obtain ⟨o, _, he⟩ := List.mem_map.1 h
  cases o with
  | none => cases he
  | some x =>
    have he : decodeEntry x.1 x.2 = d := by simpa using he
    subst he
    have hnz := Verif.Props.C43_no_x0_destination x.1 x.2 hd
    refine ⟨by omega, ?_⟩
    cases hp : x.2 with
    | true => rw [hp] at hd; simp [decodeEntry] at hd
    | false =>
      rw [hp] at hd
      have hd : (Decode.decode x.1).destEn = true := by simpa [decodeEntry] using hd
      have := (Verif.Props.C08_dest x.1 hd).2
      simp only [decodeEntry, Bool.false_eq_true, if_false]
      omega

theorem ren_insts (h : Link k s bw rw Z g) (c : Cyc n) :
    (RenWindow.stepSys k.P k.A n rw (iR k s c)).insts = (step k s c).lat.map (Option.map toInst) := by
  obtain ⟨hs1, _⟩ := h.slots
  show Ren.combPipeline (Ren.renameGroup k.P rw.regs rw.insts) (iR k s c).dec _ _ _ = (latNext k s c).map _
  rw [h.regs, h.latch]
  show Ren.combPipeline (renSlots k s) _ (disOut k s c).ready (flush s c) (mispred s) = _
  have hlen : (renSlots k s).length = s.lat.length := by
    have := congrArg List.length hs1; simpa using this
  unfold Ren.combPipeline latNext
  by_cases hf : (flush s c || (mispred s).isSome) = true
  · rw [if_pos hf, if_pos hf, List.map_map]
    have e1 : (renSlots k s).map (fun _ => (none : Option Ren.Inst)) = List.replicate (renSlots k s).length none :=
      List.map_const' ..
    have e2 : s.lat.map (Option.map toInst ∘ fun _ => (none : Option (DInst n))) = List.replicate s.lat.length none := by
      exact List.map_const' ..
    rw [e1, e2, hlen]
  · rw [if_neg hf, if_neg hf]
    show (if renReady k s c then _ else _) = _
    by_cases hr : renReady k s c = true
    · rw [if_pos hr, if_pos hr, map_scrub]
      show (if renReady k s c then _ else _) = _
      rw [if_pos hr]
    · rw [if_neg hr, if_neg hr]
      generalize renSlots k s = sl at hs1
      generalize s.lat = l at hs1
      clear hf hr hlen
      induction sl generalizing l with
      | nil => cases l with
        | nil => rfl
        | cons _ _ => simp at hs1
      | cons x sl ih =>
        cases l with
        | nil => simp at hs1
        | cons d l =>
          simp only [List.map_cons, List.cons.injEq] at hs1
          simp only [List.map_cons, List.zipWith_cons_cons]
          rw [ih l hs1.2, hs1.1]
          congr 1
          split
          · rfl
          · cases d <;> rfl

theorem ren_regs (hk : Good k) (h : Link k s bw rw Z g) (c : Cyc n) :
    (RenWindow.stepSys k.P k.A n rw (iR k s c)).regs = (step k s c).regs := by
  show Ren.combFire k.P k.A n rw.regs (Ren.renameGroup k.P rw.regs rw.insts) (disOut k s c).ready (flush s c) (interrupt s c)
    (mispred s) ((rw.win.take (retired s c).length).map (RenWindow.toCommit ((retired s c).any Rob.isExc))) = _
  rw [commits_eq hk h c, h.regs, h.latch]; rfl

theorem ren_valid (hk : Good k) (h : Link k s bw rw Z g) {bw' : BranchWindow.Sys n} (hb : BranchWindow.Reach n k.maxBr bw')
    {old : List (Flight n)}
    (hw : renReady k s c = true → bw'.win = old ++ BranchWindow.number s.next ((decSlots k s c).filter (·.valid)))
    (ho : renReady k s c = true → ∀ e ∈ (RenWindow.stepSys k.P k.A n rw (iR k s c)).win, ∀ t, e.tag = some t →
      t ∈ old.filterMap (·.tag)) : RenWindow.Valid k.P k.A n rw (iR k s c) := by
  obtain ⟨e1, e2⟩ := h.numbered c
  have hdec : (iR k s c).dec = if renReady k s c then
    (number s.next (decoded c) (decSlots k s c)).map (Option.map toInst) else [] := rfl
  have htag : renReady k s c = true → RenWindow.slotTags (iR k s c).dec =
      (BranchWindow.number s.next ((decSlots k s c).filter (·.valid))).filterMap (·.tag) := by
    intro hr
    rw [hdec, if_pos hr, ← map_scrub s.idu.latch.clear, slotTags_flights, ← e1]
    congr 1
    rw [fm_scrub, List.map_map]; rfl
  have hnd := tags_nodup (IduProofs.inv_reach hb).core
  refine ⟨?_, ?_, ?_, ?_, ?_⟩
  · intro t ht
    have ht : mispred s = some t := ht
    unfold mispred at ht
    split at ht
    · rename_i hm
      have ht := Option.some.inj ht
      obtain ⟨q1, q2⟩ := mis_quiet (c := c) h hk.lines hm
      refine ⟨by show (retired s c).length = 0; rw [q2]; rfl, q1, ?_⟩
      obtain ⟨z, hz, hzt, _⟩ := h.mis hm
      refine ⟨ent s.info z.1, ?_, by rw [← ht]; exact hzt⟩
      rw [h.rwin]; exact List.mem_append_left _ (List.mem_map_of_mem (f := fun z => ent s.info z.1) hz)
    · cases ht
  · exact (exc_facts hk h c).2
  · intro d hd
    rw [hdec] at hd
    split at hd
    · obtain ⟨o, hom, he⟩ := List.mem_map.1 hd
      cases o with
      | none => cases he
      | some x =>
        have he : toInst x = d := by simpa using he
        subst he
        obtain ⟨f1, f2⟩ := e2 x (List.mem_filterMap.2 ⟨_, hom, rfl⟩)
        refine ⟨fun hde => ?_, fun hbr => f2 hbr⟩
        have := decoded_dest f1 hde
        have hA := hk.regs
        show 0 < x.dec.destAreg ∧ x.dec.destAreg < k.A
        omega
    · cases hd
  · by_cases hr : renReady k s c = true
    · rw [htag hr]
      rw [hw hr, List.filterMap_append] at hnd
      exact (List.nodup_append.1 hnd).2.1
    · rw [hdec, if_neg hr]; simp [RenWindow.slotTags]
  · intro t ht e he het
    by_cases hr : renReady k s c = true
    · rw [htag hr] at ht
      rw [hw hr, List.filterMap_append] at hnd
      exact (List.nodup_append.1 hnd).2.2 t (ho hr e he t het) t ht rfl
    · rw [hdec, if_neg hr] at ht; simp [RenWindow.slotTags] at ht

theorem latNext_length (h : Link k s bw rw Z g) (hv : Valid k s c) : (latNext k s c).length = k.dis.banks := by
  obtain ⟨hs1, _⟩ := h.slots
  have hlen : (renSlots k s).length = s.lat.length := by
    have := congrArg List.length hs1; simpa using this
  unfold latNext
  simp only
  split
  · rw [List.length_map, h.latLen]
  · split
    · rw [List.length_map, number_length]
      · rw [decoded, List.length_map, hv.width]
      · rw [decSlots, Idu.combDecode, decodeLoop_length, List.length_map]
    · rw [List.length_zipWith, hlen, h.latLen, Nat.min_self]

end
end Verif.SpineProofs

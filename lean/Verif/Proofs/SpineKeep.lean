import Verif.Proofs.SpineLink
/-
An ordinary cycle of the in-order back end, and the correspondence for every reachable state.
-/
namespace Verif.SpineProofs
open Verif.Spine
open Verif.Decode (DecInst decodeEntry)
open Verif.Dispatch (expectMask)
open Verif.BranchWindow (Flight)
open Verif.RenWindow (Entry toEntry entries)
open Verif.RobQueue (insts sig)
open Verif.DispatchGroup (waiting)

variable {n : Nat}

section
variable {k : Cfg} {s : St n} {bw : BranchWindow.Sys n} {rw : RenWindow.Sys} {Z : List (Flight n × Sig)} {g : Nat → BitVec 3}
variable {c : Cyc n}

theorem kept_false (slots : List Ren.Slot) (l : List (Option (DInst n))) (m : BitVec n) (h : slots.length = l.length) :
    List.zipWith (fun sl d => if Ren.fires false sl then none else d.map (scrub m)) slots l = l.map (Option.map (scrub m)) := by
  induction slots generalizing l with
  | nil => cases l with
    | nil => rfl
    | cons _ _ => simp at h
  | cons x r ih =>
    cases l with
    | nil => simp at h
    | cons d l => simp [Ren.fires] at ih h ⊢; exact ih l h

theorem kept_true (slots : List Ren.Slot) (l : List (Option (DInst n))) (m : BitVec n) :
    List.zipWith (fun sl d => if Ren.fires true sl then none else d.map (scrub m)) slots l =
      (kept slots l).map (Option.map (scrub m)) := by
  unfold kept
  rw [List.map_zipWith]
  congr 1
  funext sl d
  simp only [Ren.fires, Bool.and_true]
  split <;> rfl

theorem survive_self {f : Nat → Bool} {e : Entry} (h : ∀ t, e.tag = some t → f t = false) : RenWindow.survive f e = e := by
  obtain ⟨a, b, c, d, t⟩ := e
  cases t with
  | none => rfl
  | some t => simp [RenWindow.survive, h t rfl]

/-- The latches of rename after an ordinary cycle, with the part handed to dispatch: the group before it, and the new one. -/
theorem lat_split (h : Link k s bw rw Z g) (hf : flush s c = false) (hm : s.idu.latch.mispred = false) :
    ((if (disOut k s c).ready then (taken (renSlots k s) s.lat).map Prod.fst else []).map
        (fun d => latF (scrub s.idu.latch.clear d))) ++ ((step k s c).lat.filterMap id).map latF =
      ((s.lat.filterMap id).map (fun d => latF (scrub s.idu.latch.clear d))) ++
        BranchWindow.number s.next (if renReady k s c then (decSlots k s c).filter (·.valid) else []) := by
  obtain ⟨h1, h2⟩ := h.slots
  obtain ⟨_, _, _, _, e5, e6⟩ := group_facts _ _ h1 h2
  have hlen : (renSlots k s).length = s.lat.length := by
    have := congrArg List.length h1; simpa using this
  have hl : (step k s c).lat = if renReady k s c then
      (number s.next (decoded c) (decSlots k s c)).map (Option.map (scrub s.idu.latch.clear))
      else List.zipWith (fun sl d => if Ren.fires (disOut k s c).ready sl then none else d.map (scrub s.idu.latch.clear))
        (renSlots k s) s.lat := by
    show latNext k s c = _
    unfold latNext
    simp only
    rw [if_neg (by rw [mispred_isSome, hf, hm]; simp), IduProofs.bcast_clear]
  rw [hl]
  by_cases hr : renReady k s c = true
  · rw [if_pos hr, if_pos hr, fm_scrub, List.map_map]
    have := (h.numbered c).1
    rw [show (latF ∘ scrub s.idu.latch.clear : DInst n → Flight n) = fun d => latF (scrub s.idu.latch.clear d) from rfl, this]
    congr 1
    obtain ⟨_, _, hall⟩ := ready_facts hr
    cases hR : (disOut k s c).ready with
    | true =>
      rw [hR] at hall
      rw [if_pos rfl, e5, e6 hall, List.append_nil]
    | false =>
      rw [hR] at hall
      have hnone : s.lat.filterMap id = [] := by
        rw [List.filterMap_eq_nil_iff]
        intro o ho
        cases o with
        | none => rfl
        | some d =>
          have : some (toInst d) ∈ (renSlots k s).map Ren.Slot.inst := by
            rw [h1]; exact List.mem_map.2 ⟨_, ho, rfl⟩
          obtain ⟨sl, hsl, he⟩ := List.mem_map.1 this
          rw [List.all_eq_true] at hall
          have := hall sl hsl
          rw [he] at this
          simp [Ren.fires] at this
      rw [hnone]; rfl
  · rw [if_neg hr, if_neg hr]
    simp only [BranchWindow.number, List.append_nil]
    cases hR : (disOut k s c).ready with
    | true =>
      rw [if_pos rfl, kept_true, fm_scrub, e5, List.map_append]
      congr 1
      rw [List.map_map]; rfl
    | false =>
      rw [kept_false _ _ _ hlen, fm_scrub, List.map_map]; rfl

theorem link_run (hk : Good k) (h : Link k s bw rw Z g) (hv : Valid k s c) (hf : flush s c = false)
    (hm : s.idu.latch.mispred = false) :
    ∃ Z', Link k (step k s c) (BranchWindow.stepSys k.maxBr bw (iB k s c)) (RenWindow.stepSys k.P k.A n rw (iR k s c)) Z'
      (RobQueue.report g (robIn k s c)) ∧ RenWindow.Valid k.P k.A n rw (iR k s c) := by
  obtain ⟨h1, h2⟩ := h.slots
  obtain ⟨e1, _, e3, _, e5, _⟩ := group_facts _ _ h1 h2
  obtain ⟨W, hW⟩ := Proofs.Rob.rinv_reach hk.lines h.qr
  have hinj := sig_inj (rob_inj hW) h.sigs
  obtain ⟨Z1, Z2, rest, hz, hins, hz1, hz2, hlen, hsg⟩ := h.split hk c
  rw [hf, hm, if_neg (by simp), if_neg (by simp)] at hsg
  have hret0 : (iB k s c).retire = Z1.length := by simp [iB, hf, hlen]
  have hres : (iB k s c).resolve = exu2id c := by simp [iB, hf]
  -- abbreviations
  obtain ⟨cl, hcl⟩ : ∃ cl, cl = s.idu.latch.clear := ⟨_, rfl⟩
  have hcl' : (disIn k s c).clear = cl := by rw [hcl]; exact IduProofs.bcast_clear _
  obtain ⟨T, hT⟩ : ∃ T, T = (if (disOut k s c).ready then taken (renSlots k s) s.lat else []) := ⟨_, rfl⟩
  have hTm : ∀ x ∈ T, (disOut k s c).ready = true ∧ x ∈ taken (renSlots k s) s.lat := by
    intro x hx; rw [hT] at hx; split at hx
    · exact ⟨by assumption, hx⟩
    · cases hx
  have hrec : DispatchGroup.received (disOut k s c) (disIn k s c) = T.map disOf := by
    show (if (disOut k s c).ready then (renOut (renSlots k s) s.lat).filterMap id else []) = _
    rw [hT, e3]; split <;> rfl
  have hwait := Proofs.Dispatch.step_waiting k.dis (Proofs.Dispatch.wf_reach h.dr) (disIn k s c) hf hm
  change (DispatchGroup.fired (disOut k s c)).map (·.inst) ++ waiting (step k s c).dis = (waiting s.dis).map _ ++
    (DispatchGroup.received (disOut k s c) (disIn k s c)).map _ at hwait
  rw [hrec, List.map_map] at hwait
  have hlat := lat_split (c := c) h hf hm
  -- the flights of what waits and of what arrives
  have hWf : ∀ u ∈ waiting s.dis, disF (step k s c).info (Dispatch.scrub (disIn k s c) u) =
      BranchWindow.survive (Idu.combBranch s.idu) (disF s.info u) := by
    intro u hu
    rw [survive_young h (List.mem_append_left _ (List.mem_map_of_mem hu))]
    show (⟨u.ftq, u.brMask &&& ~~~(disIn k s c).clear, ((step k s c).info u.ftq).tag⟩ : Flight n) = _
    rw [info_w h hu, hcl', hcl]; rfl
  have hTf : ∀ x ∈ T, disF (step k s c).info (Dispatch.scrub (disIn k s c) (disOf x)) = latF (scrub s.idu.latch.clear x.1) := by
    intro x hx
    show (⟨x.1.uid, x.1.brMask &&& ~~~(disIn k s c).clear, ((step k s c).info x.1.uid).tag⟩ : Flight n) = _
    rw [info_new h (hTm x hx).1 (hTm x hx).2, hcl', hcl]; rfl
  have hLf : ∀ d ∈ s.lat.filterMap id, BranchWindow.survive (Idu.combBranch s.idu) (latF d) = latF (scrub s.idu.latch.clear d) := by
    intro d hd
    rw [survive_young h (List.mem_append_right _ (List.mem_map_of_mem hd))]; rfl
  -- the new contents of the reorder buffer
  obtain ⟨D, hDdef⟩ : ∃ D, D = (DispatchGroup.fired (disOut k s c)).map (fun a => (disF (step k s c).info a.inst, sig (toUop a))) :=
    ⟨_, rfl⟩
  have hD2 : D.map Prod.snd = (DispatchGroup.fired (disOut k s c)).map (fun a => sig (toUop a)) := by
    rw [hDdef, List.map_map]; rfl
  have hsub : ∀ z ∈ Z2, z ∈ Z := fun z hz' => by rw [hz]; exact List.mem_append_right _ hz'
  have hsub1 : ∀ z ∈ Z1, z ∈ Z := fun z hz' => by rw [hz]; exact List.mem_append_left _ hz'
  have hcomp : ∀ u ∈ retired s c, Rob.complete u = true := by
    intro u hu
    rcases Proofs.Rob.retire_cases hW (robIn0 s c) with e | e | ⟨v, _, e1, _, e3, e4, _⟩
    · have e : retired s c = [] := e.1
      rw [e] at hu; cases hu
    · exact (e.2.2.2.1 u hu).1
    · have e1 : retired s c = [v] := e1
      rw [e1] at hu
      rw [List.mem_singleton.1 hu]
      apply e3
      have e4 : flush s c = (Rob.isFlush v || (robIn0 s c).intReq) := e4
      rw [hf] at e4
      exact (Bool.or_eq_false_iff.1 e4.symm).2
  have hlive : ∀ u ∈ live k s, Rob.complete u = false → ∃ z ∈ Z2, z.2 = sig u := by
    intro u hu hc
    unfold live at hu
    rw [if_neg (by rw [hm]; simp), hins] at hu
    rcases List.mem_append.1 hu with hu | hu
    · rw [hcomp u hu] at hc; cases hc
    · exact List.mem_map.1 (show sig u ∈ Z2.map Prod.snd by rw [hz2]; exact List.mem_map_of_mem hu)
  obtain ⟨r1, r2⟩ := h.resolve hk.lines hv hsub hlive
  -- the branch window
  have hafter : BranchWindow.afterBcast bw = Z1.map (fun z => BranchWindow.survive (Idu.combBranch s.idu) z.1) ++
      (Z2.map (fun z => BranchWindow.survive (Idu.combBranch s.idu) z.1) ++
        ((waiting s.dis).map (fun u => BranchWindow.survive (Idu.combBranch s.idu) (disF s.info u)) ++
          (s.lat.filterMap id).map (fun d => latF (scrub s.idu.latch.clear d)))) := by
    rw [afterBcast_mis0 h hm, h.win, hz]
    simp only [List.map_append, List.map_map, List.append_assoc]
    congr 2
    congr 1
    apply List.map_congr_left
    intro d hd; exact hLf d hd
  have hdrop : (BranchWindow.afterBcast bw).drop (iB k s c).retire =
      Z2.map (fun z => BranchWindow.survive (Idu.combBranch s.idu) z.1) ++
        ((waiting s.dis).map (fun u => BranchWindow.survive (Idu.combBranch s.idu) (disF s.info u)) ++
          (s.lat.filterMap id).map (fun d => latF (scrub s.idu.latch.clear d))) := by
    rw [hafter, hret0, List.drop_left' (by simp)]
  have hbv : BranchWindow.Valid bw (iB k s c) := by
    constructor
    · intro f hfm
      rw [hafter, hret0, List.take_left' (by simp)] at hfm
      obtain ⟨z, hzm, rfl⟩ := List.mem_map.1 hfm
      have hJ := h.j z (hsub1 z hzm)
      obtain ⟨u, hu, hsu⟩ := List.mem_map.1 (show z.2 ∈ (retired s c).map sig by
        rw [← hz1]; exact List.mem_map_of_mem hzm)
      refine survive_none fun t ht => ?_
      have hti : (s.info z.2.1).tag = some t := by
        rcases hJ.tag with e | e
        · rw [e] at ht; cases ht
        · rw [← e, ht]
      have hc : u.cplt = u.expect := by simpa [Rob.complete] using hcomp u hu
      have hmem : u ∈ insts k.L s.rob := by rw [hins]; exact List.mem_append_left _ hu
      have hg : (g z.2.2.1).getLsbD 1 = true := by
        have h3 : z.2.2.1 = u.robIdx := by rw [← hsu]; rfl
        have h4 : z.2.2.2.2.2 = u.expect := by rw [← hsu]; rfl
        rw [h3, ← done_mem hW h.done hmem, hc, ← h4]
        exact hJ.expect t hti
      rcases hJ.gone t hti hg with e | e
      · rw [e] at ht; cases ht
      · exact e
    · intro t ht htc
      rw [hres] at htc
      obtain ⟨y, hy, _, _, _, _, _, e⟩ := r1 t ht htc
      rw [hdrop]
      exact ⟨_, List.mem_append_left _ (List.mem_map_of_mem (f := fun y => BranchWindow.survive (Idu.combBranch s.idu) y.1) hy), e⟩
    · rw [hres]
      intro hmm; exact ⟨(r2 hmm).1, (r2 hmm).2.1⟩
  have hfired : Idu.fired bw.idu (Idu.combDecode bw.idu k.maxBr (iB k s c).entries) (renReady k s c) (flush s c) =
      if renReady k s c then (decSlots k s c).filter (·.valid) else [] := by
    rw [h.idu]
    show (if (flush s c || s.idu.latch.mispred || !renReady k s c) = true then _ else (decSlots k s c).filter (·.valid)) = _
    rw [hf, hm]
    cases renReady k s c <;> rfl
  have hmid : (waiting s.dis).map (fun u => BranchWindow.survive (Idu.combBranch s.idu) (disF s.info u)) ++
      T.map (fun x => latF (scrub s.idu.latch.clear x.1)) =
      D.map Prod.fst ++ (waiting (step k s c).dis).map (disF (step k s c).info) := by
    have := congrArg (List.map (disF (step k s c).info)) hwait
    rw [List.map_append, List.map_append, List.map_map, List.map_map, List.map_map] at this
    rw [hDdef, List.map_map]
    refine Eq.trans ?_ this.symm
    congr 1
    · apply List.map_congr_left
      intro u hu; exact (hWf u hu).symm
    · apply List.map_congr_left
      intro x hx; exact (hTf x hx).symm
  have hlat' : T.map (fun x => latF (scrub s.idu.latch.clear x.1)) ++ ((step k s c).lat.filterMap id).map latF =
      (s.lat.filterMap id).map (fun d => latF (scrub s.idu.latch.clear d)) ++
        BranchWindow.number s.next (if renReady k s c then (decSlots k s c).filter (·.valid) else []) := by
    rw [← hlat, hT]
    split <;> simp
  have hbwin : (BranchWindow.stepSys k.maxBr bw (iB k s c)).win =
      (BranchWindow.afterBcast bw).drop (iB k s c).retire ++
        BranchWindow.number s.next (if renReady k s c then (decSlots k s c).filter (·.valid) else []) := by
    show (if flush s c then [] else (BranchWindow.afterBcast bw).drop (iB k s c).retire ++ BranchWindow.number bw.next
      (Idu.fired bw.idu (Idu.combDecode bw.idu k.maxBr (iB k s c).entries) (renReady k s c) (flush s c))) = _
    rw [hfired, h.next, hf]; rfl
  obtain ⟨Z', hZ'⟩ : ∃ Z', Z' = Z2.map (fun z => (BranchWindow.survive (Idu.combBranch s.idu) z.1, z.2)) ++ D := ⟨_, rfl⟩
  have hwin' : (BranchWindow.stepSys k.maxBr bw (iB k s c)).win = Z'.map Prod.fst ++
      (waiting (step k s c).dis).map (disF (step k s c).info) ++ ((step k s c).lat.filterMap id).map latF := by
    rw [hbwin, hdrop, hZ', List.map_append, List.map_map, List.append_assoc, List.append_assoc, ← hlat', List.append_assoc,
      List.append_assoc, ← List.append_assoc (List.map Prod.fst D), ← hmid, List.append_assoc]
    rfl
  -- the rename window
  have htagW : ∀ u ∈ waiting s.dis, RenWindow.survive (fun t => s.idu.latch.clear.getLsbD t) (s.info u.ftq) = s.info u.ftq := by
    intro u hu
    exact survive_self fun t ht => h.young (List.mem_append_left _ (List.mem_map_of_mem (f := disF s.info) hu)) (t := t) ht
  have htagT : ∀ x ∈ T, RenWindow.survive (fun t => s.idu.latch.clear.getLsbD t) (entOf x) = entOf x := by
    intro x hx
    have hmem : x.1 ∈ s.lat.filterMap id := by
      rw [e5]; exact List.mem_append_left _ (List.mem_map_of_mem (hTm x hx).2)
    exact survive_self fun t ht => h.young (List.mem_append_right _ (List.mem_map_of_mem (f := latF) hmem)) (t := t) ht
  have hrwin : (RenWindow.stepSys k.P k.A n rw (iR k s c)).win = Z'.map (fun z => ent (step k s c).info z.1) ++
      (waiting (step k s c).dis).map (fun u => (step k s c).info u.ftq) := by
    have hnew : (if (disOut k s c).ready then entries (Ren.renameGroup k.P rw.regs rw.insts) else []) = T.map entOf := by
      rw [h.regs, h.latch]
      show (if (disOut k s c).ready then entries (renSlots k s) else []) = _
      rw [hT, e1]; split <;> rfl
    have hmp : mispred s = none := by simp [mispred, hm]
    show (if flush s c then [] else match mispred s with
      | some t => _
      | none => (rw.win.drop (retired s c).length ++ (if (disOut k s c).ready then entries (Ren.renameGroup k.P rw.regs rw.insts)
          else [])).map (RenWindow.survive fun t => s.idu.latch.clear.getLsbD t)) = _
    rw [hnew, hf, hmp]
    simp only [Bool.false_eq_true, if_false]
    have hdr : rw.win.drop (retired s c).length = Z2.map (fun z => ent s.info z.1) ++ (waiting s.dis).map (fun u => s.info u.ftq) := by
      rw [h.rwin, hz, List.map_append, List.append_assoc, List.drop_left' (by simpa using hlen)]
    rw [hdr, hZ', List.map_append, List.map_append, List.map_append]
    have hDW : D.map (fun z => ent (step k s c).info z.1) ++ (waiting (step k s c).dis).map (fun u => (step k s c).info u.ftq) =
        (waiting s.dis).map (fun u => s.info u.ftq) ++ T.map entOf := by
      have := congrArg (List.map (fun u : Dispatch.Inst n => (step k s c).info u.ftq)) hwait
      rw [List.map_append, List.map_append, List.map_map, List.map_map, List.map_map] at this
      rw [hDdef, List.map_map]
      refine Eq.trans ?_ (this.trans ?_)
      · rfl
      · congr 1
        · apply List.map_congr_left
          intro u hu
          show (step k s c).info u.ftq = s.info u.ftq
          exact info_w h hu
        · apply List.map_congr_left
          intro x hx
          show (step k s c).info x.1.uid = entOf x
          exact info_new h (hTm x hx).1 (hTm x hx).2
    rw [List.append_assoc, List.append_assoc, hDW]
    congr 1
    · rw [List.map_map, List.map_map]
      apply List.map_congr_left
      intro y hy
      have hi := info_z (c := c) h (hsub y hy)
      have hq := (h.j y (hsub y hy)).seq
      simp only [Function.comp_apply, ent, RenWindow.survive, BranchWindow.survive, IduProofs.bcast_clear]
      rw [hq, hi]
    · congr 1
      · rw [List.map_map]
        apply List.map_congr_left
        intro u hu; exact htagW u hu
      · rw [List.map_map]
        apply List.map_congr_left
        intro x hx; exact htagT x hx
  have hsigs : (insts k.L (step k s c).rob).map sig = Z'.map Prod.snd := by
    rw [hsg, hZ', List.map_append, List.map_map, hD2, ← hz2]; rfl
  have hdin : ∀ u ∈ (DispatchGroup.fired (disOut k s c)).map (·.inst) ++ waiting (step k s c).dis,
      ((step k s c).info u.ftq).tag.isSome = isBranch u.dec := by
    intro u hu
    rw [hwait] at hu
    rcases List.mem_append.1 hu with hu | hu
    · obtain ⟨v, hv', rfl⟩ := List.mem_map.1 hu
      show ((step k s c).info v.ftq).tag.isSome = isBranch v.dec
      rw [info_w h hv']; exact h.dinfo v hv'
    · obtain ⟨x, hx, rfl⟩ := List.mem_map.1 hu
      show ((step k s c).info x.1.uid).tag.isSome = isBranch x.1.dec
      rw [info_new h (hTm x hx).1 (hTm x hx).2]
      show (if isBranch x.1.dec then some x.1.brId else none).isSome = _
      cases isBranch x.1.dec <;> rfl
  have hqr' : RobQueue.Reach k.dis.banks k.L (step k s c).rob := .step _ h.qr (rob_valid hk h c)
  obtain ⟨W', hW'⟩ := Proofs.Rob.rinv_reach hk.lines hqr'
  have hinj' := sig_inj (rob_inj hW') hsigs
  have hdsp : RobQueue.dispatched (robIn k s c) = (DispatchGroup.fired (disOut k s c)).map toUop := row_fired _
  refine ⟨Z', assemble hk h hv hbv (ren_valid hk h (.step _ h.br hbv)
    (old := (BranchWindow.afterBcast bw).drop (iB k s c).retire) (fun hr => by rw [hbwin, if_pos hr]) ?_) hwin' hrwin hsigs ?_
    (fun u hu => hdin u (List.mem_append_right _ hu))⟩
  · intro hr e he t ht
    -- the tags of the rename window are those of older flights
    rw [hrwin] at he
    have hpre : Z'.map Prod.fst ++ (waiting (step k s c).dis).map (disF (step k s c).info) =
        Z2.map (fun z => BranchWindow.survive (Idu.combBranch s.idu) z.1) ++
        ((waiting s.dis).map (fun u => BranchWindow.survive (Idu.combBranch s.idu) (disF s.info u)) ++
          T.map (fun x => latF (scrub s.idu.latch.clear x.1))) := by
      rw [hmid, hZ', List.map_append, List.map_map, List.append_assoc]; rfl
    have hm1 : t ∈ (Z'.map Prod.fst ++ (waiting (step k s c).dis).map (disF (step k s c).info)).filterMap (·.tag) := by
      rcases List.mem_append.1 he with he | he
      · obtain ⟨z, hz', rfl⟩ := List.mem_map.1 he
        exact List.mem_filterMap.2 ⟨z.1, List.mem_append_left _ (List.mem_map_of_mem hz'), ht⟩
      · obtain ⟨u, hu, rfl⟩ := List.mem_map.1 he
        exact List.mem_filterMap.2 ⟨_, List.mem_append_right _ (List.mem_map_of_mem hu), ht⟩
    rw [hpre] at hm1
    rw [hdrop]
    obtain ⟨f, hfm, hft⟩ := List.mem_filterMap.1 hm1
    refine List.mem_filterMap.2 ⟨f, ?_, hft⟩
    rcases List.mem_append.1 hfm with hfm | hfm
    · exact List.mem_append_left _ hfm
    · refine List.mem_append_right _ ?_
      rcases List.mem_append.1 hfm with hfm | hfm
      · exact List.mem_append_left _ hfm
      · obtain ⟨x, hx, rfl⟩ := List.mem_map.1 hfm
        refine List.mem_append_right _ (List.mem_map.2 ⟨x.1, ?_, rfl⟩)
        rw [e5]; exact List.mem_append_left _ (List.mem_map_of_mem (hTm x hx).2)
  · rw [hZ']
    refine finish h hk.lines hv hsub hlive ?_ ?_ (fun y hy => info_z h (hsub y hy)) ?_ ?_
    · show (Idu.combFire s.idu k.maxBr (decSlots k s c) (renReady k s c) (flush s c) (exu2id c)).latch = _
      unfold Idu.combFire
      rw [hf, hm]; rfl
    · show (if flush s c then 0 else _) = _
      rw [hf]; rfl
    · intro y hy
      unfold RobQueue.report
      rw [if_neg]
      · rfl
      · rintro ⟨u, hu, he⟩
        rw [hdsp] at hu
        obtain ⟨a, ha, rfl⟩ := List.mem_map.1 hu
        rw [hZ', List.pairwise_append] at hinj'
        refine hinj'.2.2 _ (List.mem_map_of_mem hy) (disF (step k s c).info a.inst, sig (toUop a)) ?_ he.symm
        rw [hDdef]; exact List.mem_map_of_mem (f := fun a => (disF (step k s c).info a.inst, sig (toUop a))) ha
    · intro d hd
      rw [hDdef] at hd
      obtain ⟨a, ha, rfl⟩ := List.mem_map.1 hd
      refine ⟨rfl, rfl, fun t ht => ?_, ?_⟩
      · have := hdin a.inst (List.mem_append_left _ (List.mem_map_of_mem ha))
        have ht : ((step k s c).info a.inst.ftq).tag = some t := ht
        rw [ht] at this
        exact expect_branch this.symm
      · unfold RobQueue.report
        refine if_pos ⟨toUop a, ?_, rfl⟩
        rw [hdsp]; exact List.mem_map_of_mem ha

/-- One cycle: the correspondence goes on, and the rename stage is given what its closed model assumes. -/
theorem link_step_valid (hk : Good k) (h : Link k s bw rw Z g) (hv : Valid k s c) :
    ∃ Z', Link k (step k s c) (BranchWindow.stepSys k.maxBr bw (iB k s c)) (RenWindow.stepSys k.P k.A n rw (iR k s c)) Z'
      (RobQueue.report g (robIn k s c)) ∧ RenWindow.Valid k.P k.A n rw (iR k s c) := by
  cases hf : flush s c with
  | true => exact ⟨[], link_flush hk h hv hf⟩
  | false =>
    cases hm : s.idu.latch.mispred with
    | true => exact link_mis hk h hv hm
    | false => exact link_run hk h hv hf hm

theorem link_step (hk : Good k) (h : Link k s bw rw Z g) (hv : Valid k s c) :
    ∃ Z', Link k (step k s c) (BranchWindow.stepSys k.maxBr bw (iB k s c)) (RenWindow.stepSys k.P k.A n rw (iR k s c)) Z'
      (RobQueue.report g (robIn k s c)) :=
  (link_step_valid hk h hv).imp fun _ h => h.1

theorem link_init (hk : Good k) : Link (n := n) k (Spine.init n k) ⟨Idu.init n, [], 0⟩
    ⟨Ren.init k.P k.A, List.replicate k.dis.banks none, [], []⟩ [] (fun _ => 0#3) := by
  have hw : waiting (Spine.init n k).dis = [] := by
    show (List.replicate k.dis.banks none).filterMap id = []
    rw [List.filterMap_eq_nil_iff]; intro o ho; rw [(List.mem_replicate.1 ho).2]; rfl
  have hl : (Spine.init n k).lat.filterMap id = [] := by
    show (List.replicate k.dis.banks none).filterMap id = []
    rw [List.filterMap_eq_nil_iff]; intro o ho; rw [(List.mem_replicate.1 ho).2]; rfl
  have hi : insts k.L (Spine.init n k).rob = [] := by
    have := Proofs.Rob.rinv_insts (Proofs.Rob.rinv_init (B := k.dis.banks) hk.lines)
    exact this.trans rfl
  refine ⟨.init, .init _, .init, .init, ?_, rfl, rfl, rfl, ?_, ?_, ?_, ?_, ?_, ?_, ?_, ?_, ?_, ?_⟩
  · intro l b u _ hu
    have := (List.mem_replicate.1 (List.mem_of_getElem? hu)).2
    cases this
  · show List.replicate k.dis.banks none = (List.replicate k.dis.banks none).map _
    rw [List.map_replicate]; rfl
  · rw [hw, hl]; rfl
  · rw [hw]; rfl
  · rw [hi]; rfl
  · intro z hz; cases hz
  · intro t _ ht; simp [Spine.init, Idu.init, Idu.Latch.none] at ht
  · intro hm; simp [Spine.init, Idu.init, Idu.Latch.none] at hm
  · intro u hu; rw [hw] at hu; cases hu
  · simp [Spine.init]
  · simp [Spine.init, Dispatch.init]

theorem link_reach (hk : Good k) (h : Reach k s) : ∃ bw rw Z g, Link k s bw rw Z g := by
  induction h with
  | init => exact ⟨_, _, _, _, link_init hk⟩
  | step c _ hv ih =>
    obtain ⟨bw, rw, Z, g, hl⟩ := ih
    obtain ⟨Z', hl'⟩ := link_step hk hl hv
    exact ⟨_, _, _, _, hl'⟩

end
end Verif.SpineProofs

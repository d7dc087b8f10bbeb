import Verif.Proofs.SpineRun
/-
The correspondence between the in-order back end and the closed models of its stages is kept by every cycle.
-/
namespace Verif.SpineProofs
open Verif.Spine
open Verif.Decode (DecInst decodeEntry)
open Verif.Dispatch (expectMask)
open Verif.BranchWindow (Flight)
open Verif.RenWindow (Entry toEntry entries)
open Verif.RobQueue (insts sig)
open Verif.DispatchGroup (waiting)

variable {n : Nat}

section
variable {k : Cfg} {s : St n} {bw : BranchWindow.Sys n} {rw : RenWindow.Sys} {Z : List (Flight n × Sig)} {g : Nat → BitVec 3}
variable {c : Cyc n}

theorem assembled (hk : Good k) (h : Link k s bw rw Z g) (hv : Valid k s c) (hbv : BranchWindow.Valid bw (iB k s c))
    (hrv : RenWindow.Valid k.P k.A n rw (iR k s c)) {Z' : List (Flight n × Sig)}
    (win : (BranchWindow.stepSys k.maxBr bw (iB k s c)).win = Z'.map Prod.fst ++
      (waiting (step k s c).dis).map (disF (step k s c).info) ++ ((step k s c).lat.filterMap id).map latF)
    (rwin : (RenWindow.stepSys k.P k.A n rw (iR k s c)).win = Z'.map (fun z => ent (step k s c).info z.1) ++
      (waiting (step k s c).dis).map (fun u => (step k s c).info u.ftq))
    (sigs : (insts k.L (step k s c).rob).map sig = Z'.map Prod.snd)
    (hj : (∀ z ∈ Z', J (step k s c) (RobQueue.report g (robIn k s c)) z) ∧
      (∀ t, 0 < t → (step k s c).idu.latch.clear.getLsbD t = true →
        ∃ z ∈ Z', z.1.tag = some t ∧ (RobQueue.report g (robIn k s c) z.2.2.1).getLsbD 1 = true) ∧
      ((step k s c).idu.latch.mispred = true →
        ∃ z ∈ Z', z.1.tag = some (step k s c).idu.latch.brId ∧ z.2.2.1 = (step k s c).redirect))
    (dinfo : ∀ u ∈ waiting (step k s c).dis, ((step k s c).info u.ftq).tag.isSome = isBranch u.dec) :
    Link k (step k s c) (BranchWindow.stepSys k.maxBr bw (iB k s c)) (RenWindow.stepSys k.P k.A n rw (iR k s c)) Z'
      (RobQueue.report g (robIn k s c)) where
  br := .step _ h.br hbv
  rr := .step _ h.rr hrv
  dr := .step _ h.dr (dis_valid hk h c)
  qr := .step _ h.qr (rob_valid hk h c)
  done := by
    obtain ⟨W, hW⟩ := Proofs.Rob.rinv_reach hk.lines h.qr
    exact Proofs.Rob.done_step hW h.done _ (rob_valid hk h c)
  idu := by
    show Idu.combFire bw.idu k.maxBr (Idu.combDecode bw.idu k.maxBr _) (renReady k s c) (flush s c)
      (if flush s c then Idu.Latch.none n else exu2id c) = _
    rw [h.idu]
    show _ = Idu.combFire s.idu k.maxBr (decSlots k s c) (renReady k s c) (flush s c) (exu2id c)
    cases flush s c <;> rfl
  next := by
    show bw.next + (Idu.fired bw.idu (Idu.combDecode bw.idu k.maxBr _) (renReady k s c) (flush s c)).length = _
    rw [h.idu, h.next]; rfl
  regs := ren_regs hk h c
  latch := ren_insts h c
  win := win
  rwin := rwin
  sigs := sigs
  j := hj.1
  own := hj.2.1
  mis := hj.2.2
  dinfo := dinfo
  latLen := latNext_length h hv
  disLen := by
    have := Proofs.Dispatch.step_length k.dis (Proofs.Dispatch.wf_reach h.dr) (disIn k s c) (dis_valid hk h c).width
    rw [h.disLen] at this; exact this

theorem assemble (hk : Good k) (h : Link k s bw rw Z g) (hv : Valid k s c) (hbv : BranchWindow.Valid bw (iB k s c))
    (hrv : RenWindow.Valid k.P k.A n rw (iR k s c)) {Z' : List (Flight n × Sig)}
    (win : (BranchWindow.stepSys k.maxBr bw (iB k s c)).win = Z'.map Prod.fst ++
      (waiting (step k s c).dis).map (disF (step k s c).info) ++ ((step k s c).lat.filterMap id).map latF)
    (rwin : (RenWindow.stepSys k.P k.A n rw (iR k s c)).win = Z'.map (fun z => ent (step k s c).info z.1) ++
      (waiting (step k s c).dis).map (fun u => (step k s c).info u.ftq))
    (sigs : (insts k.L (step k s c).rob).map sig = Z'.map Prod.snd)
    (hj : (∀ z ∈ Z', J (step k s c) (RobQueue.report g (robIn k s c)) z) ∧
      (∀ t, 0 < t → (step k s c).idu.latch.clear.getLsbD t = true →
        ∃ z ∈ Z', z.1.tag = some t ∧ (RobQueue.report g (robIn k s c) z.2.2.1).getLsbD 1 = true) ∧
      ((step k s c).idu.latch.mispred = true →
        ∃ z ∈ Z', z.1.tag = some (step k s c).idu.latch.brId ∧ z.2.2.1 = (step k s c).redirect))
    (dinfo : ∀ u ∈ waiting (step k s c).dis, ((step k s c).info u.ftq).tag.isSome = isBranch u.dec) :
    Link k (step k s c) (BranchWindow.stepSys k.maxBr bw (iB k s c)) (RenWindow.stepSys k.P k.A n rw (iR k s c)) Z'
      (RobQueue.report g (robIn k s c)) ∧ RenWindow.Valid k.P k.A n rw (iR k s c) :=
  ⟨assembled hk h hv hbv hrv win rwin sigs hj dinfo, hrv⟩

theorem afterBcast_mis0 (h : Link k s bw rw Z g) (hm : s.idu.latch.mispred = false) :
    BranchWindow.afterBcast bw = bw.win.map (BranchWindow.survive (Idu.combBranch s.idu)) := by
  unfold BranchWindow.afterBcast
  simp only
  rw [List.filter_eq_self.2, h.idu]
  intro f _
  rw [IduProofs.not_killed (by rw [h.idu]; exact hm)]; rfl

/-! ### Rename records -/

theorem info_eq (k : Cfg) (s : St n) (c : Cyc n) (m : Nat) : (step k s c).info m = if (disOut k s c).ready then
    (((records (renSlots k s) s.lat).find? (fun x => x.1 == m)).map Prod.snd).getD (s.info m) else s.info m := by
  show (if (disOut k s c).ready then _ else s.info : Nat → Entry) m = _
  split <;> rfl

theorem Link.latNodup (h : Link k s bw rw Z g) : ((s.lat.filterMap id).map (·.uid)).Nodup := by
  have := h.core.sorted
  rw [h.win, List.pairwise_append] at this
  have := this.2.1
  rw [List.pairwise_map] at this
  rw [List.Nodup, List.pairwise_map]
  exact this.imp fun hlt => Nat.ne_of_lt hlt

theorem info_new (h : Link k s bw rw Z g) (hR : (disOut k s c).ready = true) {x} (hx : x ∈ taken (renSlots k s) s.lat) :
    (step k s c).info x.1.uid = entOf x := by
  obtain ⟨h1, h2⟩ := h.slots
  obtain ⟨_, e2, _, _, e5, _⟩ := group_facts _ _ h1 h2
  have hn := h.latNodup
  rw [e5, List.map_append] at hn
  have hn := (List.nodup_append.1 hn).1
  rw [info_eq, if_pos hR, e2, find_nodup (b := entOf x)]
  · rfl
  · rw [List.map_map]; rw [List.map_map] at hn; exact hn
  · exact List.mem_map.2 ⟨x, hx, rfl⟩

theorem info_old (h : Link k s bw rw Z g) {m : Nat} (hm : ∀ d ∈ s.lat.filterMap id, d.uid ≠ m) :
    (step k s c).info m = s.info m := by
  obtain ⟨h1, h2⟩ := h.slots
  obtain ⟨_, e2, _, _, e5, _⟩ := group_facts _ _ h1 h2
  rw [info_eq]
  split
  · rw [e2, find_absent]
    · rfl
    · intro hmem
      rw [List.map_map] at hmem
      obtain ⟨x, hx, he⟩ := List.mem_map.1 hmem
      exact hm x.1 (by rw [e5]; exact List.mem_append_left _ (List.mem_map_of_mem hx)) he
  · rfl

theorem info_z (h : Link k s bw rw Z g) {z} (hz : z ∈ Z) : (step k s c).info z.2.1 = s.info z.2.1 := by
  refine info_old h fun d hd he => ?_
  have := h.seqZ (List.mem_append_right _ (List.mem_map_of_mem (f := latF) hd)) z hz
  rw [(h.j z hz).seq] at this
  have e : (latF d).seq = d.uid := rfl
  omega

theorem info_w (h : Link k s bw rw Z g) {u} (hu : u ∈ waiting s.dis) : (step k s c).info u.ftq = s.info u.ftq := by
  refine info_old h fun d hd he => ?_
  have := h.core.sorted
  rw [h.win, List.pairwise_append] at this
  have : u.ftq < d.uid := this.2.2 (disF s.info u) (List.mem_append_right _ (List.mem_map_of_mem hu)) (latF d)
    (List.mem_map_of_mem hd)
  omega

/-! ### A flush -/

theorem waiting_none (l : List (Option (Dispatch.Inst n))) : (l.map (fun _ => (none : Option (Dispatch.Inst n)))).filterMap id = [] := by
  rw [List.filterMap_eq_nil_iff]
  intro o ho
  obtain ⟨_, _, rfl⟩ := List.mem_map.1 ho
  rfl

theorem lat_none (l : List (Option (DInst n))) : (l.map (fun _ => (none : Option (DInst n)))).filterMap id = [] := by
  rw [List.filterMap_eq_nil_iff]
  intro o ho
  obtain ⟨_, _, rfl⟩ := List.mem_map.1 ho
  rfl

/-- In a flush or misprediction cycle nothing is left before dispatch. -/
theorem emptied (h : flush s c = true ∨ s.idu.latch.mispred = true) :
    waiting (step k s c).dis = [] ∧ (step k s c).lat.filterMap id = [] ∧ renReady k s c = false := by
  have hb : (flush s c || s.idu.latch.mispred) = true := by rcases h with h | h <;> simp [h]
  refine ⟨?_, ?_, ?_⟩
  · show (if (flush s c || s.idu.latch.mispred) = true then s.dis.slots.map (fun _ => none) else _).filterMap id = []
    rw [if_pos hb, waiting_none]
  · show (latNext k s c).filterMap id = []
    unfold latNext
    simp only
    rw [if_pos (by rw [mispred_isSome]; exact hb), lat_none]
  · unfold renReady Ren.readyOut
    rw [mispred_isSome, hb]; simp

theorem link_flush (hk : Good k) (h : Link k s bw rw Z g) (hv : Valid k s c) (hf : flush s c = true) :
    Link k (step k s c) (BranchWindow.stepSys k.maxBr bw (iB k s c)) (RenWindow.stepSys k.P k.A n rw (iR k s c)) []
      (RobQueue.report g (robIn k s c)) ∧ RenWindow.Valid k.P k.A n rw (iR k s c) := by
  obtain ⟨e1, e2, e3⟩ := emptied (k := k) (c := c) (.inl hf)
  have hbv : BranchWindow.Valid bw (iB k s c) := by
    constructor
    · intro f hfm; simp [iB, hf] at hfm
    · intro t _ ht; simp [iB, hf, Idu.Latch.none] at ht
    · intro hm; simp [iB, hf, Idu.Latch.none] at hm
  have hlat : (step k s c).idu.latch = Idu.Latch.none n := by
    show (Idu.combFire s.idu k.maxBr (decSlots k s c) (renReady k s c) (flush s c) (exu2id c)).latch = _
    rw [hf]; rfl
  have hw : (BranchWindow.stepSys k.maxBr bw (iB k s c)).win = [] := by
    show (if flush s c then [] else _) = _
    rw [hf]; rfl
  have hrw : (RenWindow.stepSys k.P k.A n rw (iR k s c)).win = [] := by
    show (if flush s c then [] else _) = _
    rw [hf]; rfl
  refine assemble hk h hv hbv (ren_valid (old := []) hk h (.step _ h.br hbv) (fun hr => by rw [e3] at hr; cases hr)
    (fun hr => by rw [e3] at hr; cases hr)) ?_ ?_ ?_ ⟨?_, ?_, ?_⟩ ?_
  · rw [hw, e1, e2]; rfl
  · rw [hrw, e1]; rfl
  · obtain ⟨_, _, _, _, _, _, _, _, hs⟩ := h.split hk c
    rw [hs, hf]; rfl
  · intro z hz; cases hz
  · intro t _ ht; rw [hlat] at ht; simp [Idu.Latch.none] at ht
  · intro hm; rw [hlat] at hm; cases hm
  · intro u hu; rw [e1] at hu; cases hu

/-! ### A misprediction -/

theorem upTo_sig (r : Nat) (z : Flight n × Sig) (Y : List (Flight n × Sig)) : ∀ (X : List (Flight n × Sig)) (us : List Rob.Uop),
    us.map sig = (X ++ z :: Y).map Prod.snd → (∀ x ∈ X, x.2.2.1 ≠ r) → z.2.2.1 = r →
    (RobQueue.upTo r us).map sig = (X ++ [z]).map Prod.snd
  | [], us, h, _, hz => by
    cases us with
    | nil => simp at h
    | cons u us =>
      simp only [List.map_cons, List.nil_append, List.cons.injEq] at h
      have : u.robIdx = r := by rw [← hz, ← h.1]; rfl
      rw [RobQueue.upTo, if_pos this]
      simp [h.1]
  | x :: X, us, h, hx, hz => by
    cases us with
    | nil => simp at h
    | cons u us =>
      simp only [List.map_cons, List.cons_append, List.cons.injEq] at h
      have : u.robIdx ≠ r := by
        have := hx x List.mem_cons_self
        rw [← h.1] at this; exact this
      rw [RobQueue.upTo, if_neg this]
      simp only [List.map_cons, List.cons_append]
      rw [upTo_sig r z Y X us h.2 (fun y hy => hx y (List.mem_cons_of_mem _ hy)) hz, h.1]

theorem upTo_ent {t : Nat} {e : Entry} {R : List Entry} (he : e.tag = some t) : ∀ (X : List Entry), (∀ x ∈ X, x.tag ≠ some t) →
    RenWindow.upTo t (X ++ e :: R) = X ++ [e]
  | [], _ => by simp [RenWindow.upTo, he]
  | x :: X, hx => by
    rw [List.cons_append, RenWindow.upTo, if_neg (hx x List.mem_cons_self),
      upTo_ent he X fun y hy => hx y (List.mem_cons_of_mem _ hy)]
    rfl

theorem link_mis (hk : Good k) (h : Link k s bw rw Z g) (hv : Valid k s c) (hm : s.idu.latch.mispred = true) :
    ∃ Z', Link k (step k s c) (BranchWindow.stepSys k.maxBr bw (iB k s c)) (RenWindow.stepSys k.P k.A n rw (iR k s c)) Z'
      (RobQueue.report g (robIn k s c)) ∧ RenWindow.Valid k.P k.A n rw (iR k s c) := by
  obtain ⟨hf, hret⟩ := mis_quiet (c := c) h hk.lines hm
  obtain ⟨e1, e2, e3⟩ := emptied (k := k) (c := c) (.inr hm)
  obtain ⟨W, hW⟩ := Proofs.Rob.rinv_reach hk.lines h.qr
  have hinj := sig_inj (rob_inj hW) h.sigs
  obtain ⟨z, hz, hzt, hzr⟩ := h.mis hm
  obtain ⟨X, Y, hXY⟩ := List.append_of_mem hz
  have hidx : ∀ x ∈ X, x.2.2.1 ≠ s.redirect := by
    intro x hx
    rw [hXY, List.pairwise_append] at hinj
    rw [← hzr]; exact hinj.2.2 x hx z List.mem_cons_self
  have hsort := h.core.sorted
  have hlt : ∀ x ∈ X, x.1.seq < z.1.seq := by
    intro x hx
    rw [h.win, hXY] at hsort
    simp only [List.map_append, List.map_cons, List.append_assoc, List.cons_append] at hsort
    rw [List.pairwise_append] at hsort
    exact hsort.2.2 _ (List.mem_map_of_mem hx) _ List.mem_cons_self
  have hsub : ∀ y ∈ X ++ [z], y ∈ Z := by
    intro y hy
    rw [hXY]
    rcases List.mem_append.1 hy with hy | hy
    · exact List.mem_append_left _ hy
    · rw [List.mem_singleton.1 hy]; simp
  have hup : (RobQueue.upTo s.redirect (insts k.L s.rob)).map sig = (X ++ [z]).map Prod.snd :=
    upTo_sig s.redirect z Y X _ (by rw [h.sigs, hXY]) hidx hzr
  have hlive : ∀ u ∈ live k s, Rob.complete u = false → ∃ y ∈ X ++ [z], y.2 = sig u := by
    intro u hu _
    unfold live at hu
    rw [if_pos hm] at hu
    have : sig u ∈ (X ++ [z]).map Prod.snd := by rw [← hup]; exact List.mem_map_of_mem hu
    exact List.mem_map.1 this
  have hbr : BranchWindow.afterBcast bw = (X ++ [z]).map (fun y => BranchWindow.survive (Idu.combBranch s.idu) y.1) := by
    have hinv := IduProofs.inv_reach h.br
    have hk1 : ∀ f ∈ bw.win, BranchWindow.killed (Idu.combBranch bw.idu) f = true ↔ z.1.seq < f.seq := fun f hfm =>
      IduProofs.killed_iff hinv (by rw [h.idu]; exact hm) (h.memZ hz) (by rw [h.idu]; exact hzt) hfm
    have hwin : bw.win = (X ++ [z]).map Prod.fst ++ (Y.map Prod.fst ++ ((waiting s.dis).map (disF s.info) ++
        (s.lat.filterMap id).map latF)) := by
      rw [h.win, hXY]; simp
    unfold BranchWindow.afterBcast
    simp only
    have hfil : bw.win.filter (fun f => !BranchWindow.killed (Idu.combBranch bw.idu) f) = (X ++ [z]).map Prod.fst := by
      have hm1 : ∀ f ∈ (X ++ [z]).map Prod.fst, (!BranchWindow.killed (Idu.combBranch bw.idu) f) = true := by
        intro f hfm
        have hw : f ∈ bw.win := by rw [hwin]; exact List.mem_append_left _ hfm
        rw [Bool.not_eq_true']
        cases hkk : BranchWindow.killed (Idu.combBranch bw.idu) f with
        | false => rfl
        | true =>
          have h1 := (hk1 f hw).1 hkk
          obtain ⟨y, hy, rfl⟩ := List.mem_map.1 hfm
          rcases List.mem_append.1 hy with hy | hy
          · have := hlt y hy; omega
          · rw [List.mem_singleton.1 hy] at h1; omega
      have hm2 : ∀ f ∈ Y.map Prod.fst ++ ((waiting s.dis).map (disF s.info) ++ (s.lat.filterMap id).map latF),
          ¬ (!BranchWindow.killed (Idu.combBranch bw.idu) f) = true := by
        intro f hfm
        have hw : f ∈ bw.win := by rw [hwin]; exact List.mem_append_right _ hfm
        have hs2 := hsort
        rw [hwin, List.pairwise_append] at hs2
        have : z.1.seq < f.seq := hs2.2.2 _ (List.mem_map_of_mem (by simp)) f hfm
        rw [(hk1 f hw).2 this]; simp
      rw [hwin, List.filter_append, List.filter_eq_self.2 hm1, List.filter_eq_nil_iff.2 hm2, List.append_nil]
    rw [hfil, List.map_map, h.idu]; rfl
  obtain ⟨r1, r2⟩ := h.resolve hk.lines hv hsub hlive
  have hbv : BranchWindow.Valid bw (iB k s c) := by
    constructor
    · intro f hfm
      have : (iB k s c).retire = 0 := by simp [iB, hf, hret]
      rw [this] at hfm; simp at hfm
    · intro t ht htc
      have h0 : (iB k s c).retire = 0 := by simp [iB, hf, hret]
      have h1 : (iB k s c).resolve = exu2id c := by simp [iB, hf]
      rw [h1] at htc
      obtain ⟨y, hy, _, _, _, _, _, e⟩ := r1 t ht htc
      rw [h0, List.drop_zero, hbr]
      exact ⟨_, List.mem_map_of_mem (f := fun y => BranchWindow.survive (Idu.combBranch s.idu) y.1) hy, e⟩
    · have h1 : (iB k s c).resolve = exu2id c := by simp [iB, hf]
      rw [h1]
      intro hmm; exact ⟨(r2 hmm).1, (r2 hmm).2.1⟩
  have hfired : Idu.fired bw.idu (Idu.combDecode bw.idu k.maxBr (iB k s c).entries) (renReady k s c) (flush s c) = [] := by
    unfold Idu.fired; rw [e3]; simp
  have hdisp : RobQueue.dispatched (robIn k s c) = [] := by
    show (fireRow (disOut k s c)).filterMap id = []
    rw [row_fired, (blocked (k := k) (c := c) (.inr (.inl hm))).2]; rfl
  refine ⟨(X ++ [z]).map (fun z => (BranchWindow.survive (Idu.combBranch s.idu) z.1, z.2)) ++ [],
    assemble hk h hv hbv (ren_valid (old := []) hk h (.step _ h.br hbv) (fun hr => by rw [e3] at hr; cases hr)
    (fun hr => by rw [e3] at hr; cases hr)) ?_ ?_ ?_ ?_ ?_⟩
  · show (if flush s c then [] else (BranchWindow.afterBcast bw).drop (iB k s c).retire ++ BranchWindow.number bw.next
      (Idu.fired bw.idu (Idu.combDecode bw.idu k.maxBr (iB k s c).entries) (renReady k s c) (flush s c))) = _
    have h0 : (iB k s c).retire = 0 := by simp [iB, hf, hret]
    rw [hfired, h0, hbr, hf, e1, e2]
    simp [BranchWindow.number, List.map_map, Function.comp_def]
  · show (if flush s c then [] else match mispred s with
      | some t => (RenWindow.upTo t rw.win).map (RenWindow.survive fun t => s.idu.latch.clear.getLsbD t)
      | none => _) = _
    have hmp : mispred s = some s.idu.latch.brId := by simp [mispred, hm]
    rw [hf, hmp, e1]
    simp only [Bool.false_eq_true, if_false, List.append_nil, List.map_nil]
    rw [h.rwin, hXY, List.map_append, List.map_cons, List.append_assoc, List.cons_append,
      upTo_ent (e := ent s.info z.1) hzt]
    · rw [show X.map (fun z => ent s.info z.1) ++ [ent s.info z.1] = (X ++ [z]).map (fun z => ent s.info z.1) by simp,
        List.map_map, List.map_map]
      apply List.map_congr_left
      intro y hy
      have hi := info_z (c := c) h (hsub y hy)
      have hq := (h.j y (hsub y hy)).seq
      simp only [Function.comp_apply, ent, RenWindow.survive, BranchWindow.survive, IduProofs.bcast_clear]
      rw [hq, hi]
    · intro e he
      obtain ⟨x, hx, rfl⟩ := List.mem_map.1 he
      intro ht
      have hxZ : x ∈ Z := hsub x (List.mem_append_left _ hx)
      have := h.core.uniq _ (h.memZ hxZ) _ (h.memZ hz) _ ht hzt
      have := hlt x hx
      omega
  · obtain ⟨_, _, _, _, _, _, _, _, hs⟩ := h.split hk c
    rw [hs, hf, hm, if_neg (by simp), if_pos rfl, hup, List.append_nil, List.map_map]; rfl
  · refine finish h hk.lines hv hsub hlive ?_ ?_ (fun y hy => info_z h (hsub y hy)) ?_ (fun d hd => by cases hd)
    · show (Idu.combFire s.idu k.maxBr (decSlots k s c) (renReady k s c) (flush s c) (exu2id c)).latch = _
      unfold Idu.combFire
      rw [hf, hm]; rfl
    · show (if flush s c then 0 else _) = _
      rw [hf]; rfl
    · intro y _
      unfold RobQueue.report
      rw [hdisp, if_neg (by simp)]; rfl
  · intro u hu; rw [e1] at hu; cases hu

end
end Verif.SpineProofs

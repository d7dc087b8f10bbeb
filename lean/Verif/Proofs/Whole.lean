import Verif.Proofs.WholeKeep
/-
The composed stages refine `Core`, and with it the instruction-set machine.
-/
namespace Verif.WholeProofs
open Verif.Spine Verif.Whole Verif.SpineProofs
open Verif.Core (W Sem Isa Item Fetched Task)
open Verif.BranchWindow (Flight)
open Verif.RenWindow (Entry toEntry entries)
open Verif.RobQueue (insts sig)
open Verif.DispatchGroup (waiting)
open Verif.Props (rob_ids C106_ordered C106_squash)

variable {n : Nat} {M : Type} {prog : W → Sem M}
variable {k : Cfg} {s : State n M} {c : Input n M}
variable {bw : BranchWindow.Sys n} {rw : RenWindow.Sys} {Z : List (Flight n × Sig)} {g : Nat → BitVec 3}

/-- The successor an instruction is expected to have is replaced only by the one it found. -/
theorem pn_next {u : Nat} (hlt : u < s.sp.next) : ((cycle prog k s c).pay u).2 = (s.pay u).2 ∨
    ((cycle prog k s c).pay u).2 = s.act u := by
  show (if culprit k s = some u then _ else pay1 k s c u : W × W).2 = _ ∨ (if culprit k s = some u then _ else pay1 k s c u : W × W).2 = _
  split
  · exact .inr rfl
  · unfold pay1; rw [if_pos hlt]; exact .inl rfl

theorem ids_from (hk : Good k) (hi : Inv prog k s) (hl : Link k s.sp bw rw Z g) (hv : Valid prog k s c) {u : Nat}
    (hu : u ∈ ids k (cycle prog k s c)) :
    u ∈ ids k s ∨ ∃ x ∈ taken (renSlots k s.sp) s.sp.lat, (disOut k s.sp c.hw).ready = true ∧ u = x.1.uid := by
  cases hf : flush s.sp c.hw with
  | true => rw [ids_flush hk hi.reach hv.hw hf] at hu; cases hu
  | false =>
    cases hm : s.sp.idu.latch.mispred with
    | true =>
      obtain ⟨X, z, Y, hXY, _, _, _, hids⟩ := mis_split (prog := prog) hk hi.reach hl hv.hw hm
      left
      rw [hids] at hu
      rw [ids_seq hl, hXY]
      rcases List.mem_append.1 hu with h | h
      · exact List.mem_append_left _ (by rw [List.map_append]; exact List.mem_append_left _ h)
      · rw [List.mem_singleton.1 h]; simp
    | false =>
      rw [ids_run hk hi.reach hl hv.hw hf hm] at hu
      rcases List.mem_append.1 hu with h | h
      · exact .inl (List.mem_of_mem_drop h)
      · right
        obtain ⟨x, hx, rfl⟩ := List.mem_map.1 h
        split at hx
        · rename_i hR; exact ⟨x, hx, hR, rfl⟩
        · cases hx

theorem lat_from (hv : Valid prog k s c) {d : DInst n} (hd : some d ∈ (Spine.step k s.sp c.hw).lat) :
    flush s.sp c.hw = false ∧ s.sp.idu.latch.mispred = false ∧ ∃ d0, d = scrub (Idu.combBranch s.sp.idu).clear d0 ∧
      (some d0 ∈ s.sp.lat ∨ some d0 ∈ Spine.number s.sp.next (decoded c.hw) (decSlots k s.sp c.hw)) := by
  have hd : some d ∈ latNext k s.sp c.hw := hd
  unfold latNext at hd
  simp only at hd
  by_cases hfm : (flush s.sp c.hw || (mispred s.sp).isSome) = true
  · rw [if_pos hfm] at hd
    obtain ⟨_, _, h⟩ := List.mem_map.1 hd; cases h
  · rw [if_neg hfm] at hd
    rw [mispred_isSome] at hfm
    refine ⟨by cases h : flush s.sp c.hw <;> simp_all, by cases h : s.sp.idu.latch.mispred <;> simp_all, ?_⟩
    split at hd
    · obtain ⟨o, ho, he⟩ := List.mem_map.1 hd
      cases o with
      | none => cases he
      | some d0 =>
        have he : scrub (Idu.combBranch s.sp.idu).clear d0 = d := by simpa using he
        exact ⟨d0, he.symm, .inr ho⟩
    · have key : ∀ (sl : List Ren.Slot) (l : List (Option (DInst n))), some d ∈ List.zipWith (fun sl d =>
          if Ren.fires (disOut k s.sp c.hw).ready sl then none else d.map (scrub (Idu.combBranch s.sp.idu).clear)) sl l →
          ∃ d0, d = scrub (Idu.combBranch s.sp.idu).clear d0 ∧ some d0 ∈ l := by
        intro sl
        induction sl with
        | nil => intro l h; simp at h
        | cons x sl ih =>
          intro l h
          cases l with
          | nil => simp at h
          | cons y l =>
            rw [List.zipWith_cons_cons] at h
            rcases List.mem_cons.1 h with e | e
            · split at e
              · cases e
              · cases y with
                | none => cases e
                | some d0 =>
                  have e : d = scrub (Idu.combBranch s.sp.idu).clear d0 := by simpa using e
                  exact ⟨d0, e, List.mem_cons_self⟩
            · obtain ⟨d0, h1, h2⟩ := ih l e
              exact ⟨d0, h1, List.mem_cons_of_mem _ h2⟩
      obtain ⟨d0, h1, h2⟩ := key _ _ hd
      exact ⟨d0, h1, .inl h2⟩

/-- In a misprediction cycle, what stays is not younger than the branch. -/
theorem live_le (hk : Good k) (hi : Inv prog k s) (hv : Valid prog k s c) (hm : s.sp.idu.latch.mispred = true)
    {b v : Rob.Uop} (hb : b ∈ insts k.L s.sp.rob) (hbr : b.robIdx = s.sp.redirect)
    (hl : Link k s.sp bw rw Z g) (hvm : v ∈ insts k.L (Spine.step k s.sp c.hw).rob) : v.id ≤ b.id := by
  obtain ⟨Wr, hW⟩ := Proofs.Rob.rinv_reach hk.lines hl.qr
  obtain ⟨b', hb', hbr', _, _, _, _, hin⟩ := C106_squash hk hi.reach hv.hw hm
  have : b' = b := pair_inj (rob_inj hW) hb' hb (hbr'.trans hbr.symm)
  subst this
  have : v.id ∈ inflight k (Spine.step k s.sp c.hw) := by
    unfold inflight robIds
    exact List.mem_append_left _ (List.mem_append_left _ (List.mem_map_of_mem hvm))
  rw [hin] at this
  simpa using (List.mem_filter.1 this).2

theorem culprit_id (hk : Good k) (hi : Inv prog k s) (hl : Link k s.sp bw rw Z g) (hv : Valid prog k s c)
    (hm : s.sp.idu.latch.mispred = true) {b : Rob.Uop} (hb : b ∈ insts k.L s.sp.rob) (hbr : b.robIdx = s.sp.redirect) :
    culprit k s = some b.id := by
  obtain ⟨Wr, hW⟩ := Proofs.Rob.rinv_reach hk.lines hl.qr
  unfold culprit
  rw [if_pos hm]
  cases hf : (insts k.L s.sp.rob).find? (fun u => u.robIdx == s.sp.redirect) with
  | none =>
    have := List.find?_eq_none.1 hf b hb
    simp [hbr] at this
  | some v =>
    have h1 := List.mem_of_find?_eq_some hf
    have h2 : v.robIdx = s.sp.redirect := by simpa using List.find?_some hf
    rw [pair_inj (rob_inj hW) h1 hb (h2.trans hbr.symm)]; rfl

theorem inv_cycle (hk : Good k) (hi : Inv prog k s) (hl : Link k s.sp bw rw Z g) (hv : Valid prog k s c) :
    Inv prog k (cycle prog k s c) := by
  obtain ⟨Z', hl'⟩ := link_step hk hl hv.hw
  obtain ⟨Wr, hW⟩ := Proofs.Rob.rinv_reach hk.lines hl.qr
  obtain ⟨Wr', hW'⟩ := Proofs.Rob.rinv_reach hk.lines hl'.qr
  refine ⟨.step _ hi.reach hv.hw, ?_, ?_, ?_, ?_, ?_, ?_, ?_⟩
  · intro d hd
    obtain ⟨hf, hm, d0, rfl, h⟩ := lat_from hv hd
    rcases h with h | h
    · obtain ⟨h1, h2, h3⟩ := hi.lat d0 h
      refine ⟨?_, h2, h3⟩
      show Agrees d0.dec (prog ((cycle prog k s c).pay d0.uid).1)
      rw [pc_old (lat_lt hk hi.reach h)]; exact h1
    · obtain ⟨h1, h2⟩ := fetched_agrees hv h
      refine ⟨?_, hi.new _ h2⟩
      show Agrees d0.dec (prog (if culprit k s = some d0.uid then _ else pay1 k s c d0.uid : W × W).1)
      rw [culprit_none hm, if_neg (by simp)]; exact h1
  · intro u hu
    refine hi.new u (Nat.le_trans ?_ hu)
    show s.sp.next ≤ s.sp.next + _
    omega
  · intro u hu
    rcases ids_from hk hi hl hv hu with h | ⟨x, hx, hR, rfl⟩
    · show ((Spine.step k s.sp c.hw).info u).tag.isSome = _
      rw [info_ids hk hi hl h, pc_old (ids_lt hk hi.reach h)]; exact hi.br u h
    · have hmem := taken_mem hl hx
      show ((Spine.step k s.sp c.hw).info x.1.uid).tag.isSome = _
      rw [info_new hl hR hx, pc_old (lat_lt hk hi.reach hmem), (hi.lat _ hmem).1.isBr]
      show (if isBranch x.1.dec then some x.1.brId else none).isSome = _
      cases isBranch x.1.dec <;> rfl
  · intro v hvm hs
    have hvm : v ∈ waiting (Spine.step k s.sp c.hw).dis := hvm
    cases hfm : (flush s.sp c.hw || s.sp.idu.latch.mispred) with
    | true =>
      rw [(emptied (k := k) (c := c.hw) (s := s.sp) (by simpa using hfm)).1] at hvm; cases hvm
    | false =>
      obtain ⟨hf, hm⟩ := Bool.or_eq_false_iff.1 hfm
      rcases dis_from hl hf hm (List.mem_append_right _ hvm) with ⟨w, hw, e1, e2⟩ | ⟨x, hx, hR, e1, e2⟩
      · rw [e1, pc_old (ids_lt hk hi.reach (List.mem_append_right _ (List.mem_map_of_mem hw)))] at hs
        rw [e2]; exact hi.dser w hw hs
      · have hmem := taken_mem hl hx
        rw [e1, pc_old (lat_lt hk hi.reach hmem)] at hs
        rw [e2]; exact (hi.lat _ hmem).1.serial hs
  · intro v hvm hs
    obtain ⟨hf, h⟩ := rob_from hk hl hvm
    rcases h with ⟨u, _, hum, hsg⟩ | ⟨hm, a, ha, hsg⟩
    · have e1 : v.id = u.id := congrArg Prod.fst hsg
      have e2 : v.ty = u.ty := congrArg (fun x : Sig => x.2.2.2.1) hsg
      rw [e1, pc_old (ids_lt hk hi.reach (rob_mem_ids hum))] at hs
      rw [e2]; exact hi.rser u hum hs
    · have e1 : v.id = a.inst.ftq := congrArg Prod.fst hsg
      have e2 : v.ty = tyOf a.inst.dec.type := congrArg (fun x : Sig => x.2.2.2.1) hsg
      rcases dis_from hl hf hm (List.mem_append_left _ (List.mem_map_of_mem ha)) with ⟨w, hw, e3, e4⟩ | ⟨x, hx, hR, e3, e4⟩
      · rw [e1, e3, pc_old (ids_lt hk hi.reach (List.mem_append_right _ (List.mem_map_of_mem hw)))] at hs
        rw [e2, e4]; exact hi.dser w hw hs
      · have hmem := taken_mem hl hx
        rw [e1, e3, pc_old (lat_lt hk hi.reach hmem)] at hs
        rw [e2, e4]; exact (hi.lat _ hmem).1.serial hs
  · intro v hvm ht hb
    obtain ⟨hf, u, hul, hum, hsg, hbits⟩ := bit_from hk hl hl' hvm hb
    have e1 : v.id = u.id := congrArg Prod.fst hsg
    have e2 : v.robIdx = u.robIdx := congrArg (fun x : Sig => x.2.1) hsg
    have hids := rob_mem_ids hum
    have hlt := ids_lt hk hi.reach hids
    have htu : (s.sp.info u.id).tag.isSome = true := by
      have ht : ((Spine.step k s.sp c.hw).info v.id).tag.isSome = true := ht
      rw [e1, info_ids hk hi hl hids] at ht; exact ht
    rw [e1]
    -- right already, or corrected
    have hright : s.act u.id = (s.pay u.id).2 → (cycle prog k s c).act u.id = ((cycle prog k s c).pay u.id).2 := by
      intro h
      rcases pn_next (prog := prog) (k := k) (c := c) hlt with e | e
      · rw [e]; exact h
      · rw [e]; rfl
    by_cases hnew : ∃ o ∈ c.hw.res, o.robIdx = u.robIdx
    · obtain ⟨o, ho, hoi⟩ := hnew
      obtain ⟨hd, hmi⟩ := hv.branch o ho u hul hoi.symm htu
      refine ⟨hd, ?_⟩
      by_cases ha : s.act u.id = (s.pay u.id).2
      · exact .inl (hright ha)
      · have hom : o.mispred = true := by rw [hmi]; simp [ha]
        have hlat : (Spine.step k s.sp c.hw).idu.latch = exu2id c.hw := by
          show (Idu.combFire s.sp.idu k.maxBr (decSlots k s.sp c.hw) (renReady k s.sp c.hw) (flush s.sp c.hw) (exu2id c.hw)).latch = _
          unfold Idu.combFire
          rw [hf]
          cases s.sp.idu.latch.mispred <;> rfl
        have hm' : (Spine.step k s.sp c.hw).idu.latch.mispred = true := by
          rw [hlat]; exact arb_some ho hom
        refine .inr ⟨hm', ?_⟩
        obtain ⟨⟨b, hbm, hbr⟩, hall⟩ := mis_next hk hl' hm'
        refine ⟨b, hbm, hbr, ?_⟩
        obtain ⟨_, b0, _, hb0, hbs, _⟩ := bit_from hk hl hl' hbm (hall b hbm hbr).1
        have f1 : b.id = b0.id := congrArg Prod.fst hbs
        have f2 : b.robIdx = b0.robIdx := congrArg (fun x : Sig => x.2.1) hbs
        rw [f1]
        -- the chosen operation
        have hws : (arb c.hw).worst.isSome = true := arb_some ho hom
        obtain ⟨w, hw⟩ := Option.isSome_iff_exists.1 hws
        have hwr : w.robIdx = b0.robIdx := by
          rw [← f2, hbr]
          show _ = (if flush s.sp c.hw then 0 else ((arb c.hw).worst.map (·.robIdx)).getD 0)
          rw [hf, hw]; rfl
        have hwmem : w ∈ c.hw.res ∧ w.mispred = true := by
          rcases arb_worst c.hw.res _ hw with e | e
          · cases e
          · exact e
        -- operations have the age of their instructions
        have hop : ∀ x, x ∈ c.hw.res → x.mispred = true → ∃ y ∈ insts k.L s.sp.rob, y.robIdx = x.robIdx ∧ x.robFlag = y.robFlag := by
          intro x hx hxm
          rcases hv.hw.res x hx with ⟨y, hy, h1, h2, h3⟩ | h
          · have hym : y ∈ insts k.L s.sp.rob := by
              unfold live at hy
              split at hy
              · rw [← Proofs.Rob.upTo_prefix s.sp.redirect (insts k.L s.sp.rob)]; exact List.mem_append_left _ hy
              · exact hy
            exact ⟨y, hym, h1, hv.flag x hx y hy h1⟩
          · rw [h.2.1] at hxm; cases hxm
        let rank : Exu.Op n → Nat := fun x =>
          (((insts k.L s.sp.rob).find? (fun y => y.robIdx == x.robIdx)).map (·.id)).getD 0
        have hrank : ∀ (x : Exu.Op n) (y : Rob.Uop), y ∈ insts k.L s.sp.rob → y.robIdx = x.robIdx → rank x = y.id := by
          intro x y hy hyx
          show (((insts k.L s.sp.rob).find? (fun y => y.robIdx == x.robIdx)).map (·.id)).getD 0 = _
          cases hfd : (insts k.L s.sp.rob).find? (fun y => y.robIdx == x.robIdx) with
          | none =>
            have := List.find?_eq_none.1 hfd y hy
            simp [hyx] at this
          | some q =>
            have h1 := List.mem_of_find?_eq_some hfd
            have h2 : q.robIdx = x.robIdx := by simpa using List.find?_some hfd
            rw [pair_inj (rob_inj hW) h1 hy (h2.trans hyx.symm)]; rfl
        have hmin := (arb_min rank c.hw.res ⟨0#n, none⟩ (fun x y hx hy => by
          have hx : x ∈ c.hw.res ∧ x.mispred = true := hx.elim id (fun h => by cases h)
          have hy : y ∈ c.hw.res ∧ y.mispred = true := hy.elim id (fun h => by cases h)
          obtain ⟨p, hp, p1, p2⟩ := hop x hx.1 hx.2
          obtain ⟨q, hq, q1, q2⟩ := hop y hy.1 hy.2
          rw [hrank x p hp p1, hrank y q hq q1, ← age_ids hk hi hl hp hq]
          unfold Exu.cmpAge RobQueue.younger
          rw [p2, q2, ← p1, ← q1]
          simp only [beq_iff_eq]) hw).1 o ho hom
        rw [hrank w b0 hb0 hwr.symm, hrank o u hum hoi.symm] at hmin
        exact hmin
    · have hold : u.cplt.getLsbD 1 = true := by
        rcases hbits with h | ⟨w, hw, h1, h2⟩
        · exact h
        · rcases List.mem_append.1 hw with hw | hw
          · have := hv.hw.wbs w hw h2 u hum h1.symm
            rw [this] at htu; cases htu
          · obtain ⟨o, ho, rfl⟩ := List.mem_map.1 hw
            exact absurd ⟨o, ho, h1⟩ hnew
      obtain ⟨hd, h⟩ := hi.rep u hum htu hold
      refine ⟨hd, .inl ?_⟩
      rcases h with h | ⟨hm, b, hbm, hbr, hle⟩
      · exact hright h
      · have := live_le hk hi hv hm hbm hbr hl hvm
        have hcu := culprit_id hk hi hl hv hm hbm hbr
        have hbu : b.id = u.id := by omega
        show s.act u.id = (if culprit k s = some u.id then ((s.pay u.id).1, s.act u.id) else pay1 k s c u.id : W × W).2
        rw [hcu, if_pos (by rw [hbu])]
  · intro hm b hb hbr
    exact (mis_next hk hl' hm).2 b hb hbr

end Verif.WholeProofs

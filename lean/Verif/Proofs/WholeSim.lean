import Verif.Proofs.WholeStep
/-
One cycle of the composed stages is one cycle of `Core`: the states correspond.
-/
namespace Verif.WholeProofs
open Verif.Spine Verif.Whole Verif.SpineProofs
open Verif.Core (W Sem Isa Item Fetched Task)
open Verif.Decode (DecInst decodeEntry)
open Verif.BranchWindow (Flight)
open Verif.RenWindow (Entry toEntry entries)
open Verif.RobQueue (insts sig)
open Verif.DispatchGroup (waiting)
open Verif.Props (rob_ids C106_ordered C106_squash C106_conserved)

variable {n : Nat} {M : Type} {prog : W → Sem M}

theorem core_ext {s t : Core.State M} (h1 : s.ren = t.ren) (h2 : s.lat = t.lat) (h3 : s.tasks = t.tasks) (h4 : s.prf = t.prf)
    (h5 : s.expect = t.expect) (h6 : s.past = t.past) (h7 : s.isa = t.isa) : s = t := by
  cases s; cases t; simp_all

/-- What holds of the payload of the instructions in flight. -/
structure Inv (prog : W → Sem M) (k : Cfg) (s : State n M) : Prop where
  reach : Spine.Reach k s.sp
  /-- instructions in rename are the program's and have not run -/
  lat : ∀ d, some d ∈ s.sp.lat → Agrees d.dec (prog (s.pay d.uid).1) ∧ s.done d.uid = false ∧ s.act d.uid = 0#32 ∧ s.wrote d.uid = false
  new : ∀ u, s.sp.next ≤ u → s.done u = false ∧ s.act u = 0#32 ∧ s.wrote u = false
  br : ∀ u ∈ ids k s, (s.sp.info u).tag.isSome = (prog (s.pay u).1).isBr
  dser : ∀ v ∈ waiting s.sp.dis, (prog (s.pay v.ftq).1).serial = true → flushTy (tyOf v.dec.type) = true
  rser : ∀ v ∈ insts k.L s.sp.rob, (prog (s.pay v.id).1).serial = true → flushTy v.ty = true
  /-- a reported branch has run, and was predicted right unless the latched misprediction is its own or an older one's -/
  rep : ∀ v ∈ insts k.L s.sp.rob, (s.sp.info v.id).tag.isSome = true → v.cplt.getLsbD 1 = true → s.done v.id = true ∧
    (s.act v.id = (s.pay v.id).2 ∨
      s.sp.idu.latch.mispred = true ∧ ∃ b ∈ insts k.L s.sp.rob, b.robIdx = s.sp.redirect ∧ b.id ≤ v.id)
  mis : s.sp.idu.latch.mispred = true → ∀ b ∈ insts k.L s.sp.rob, b.robIdx = s.sp.redirect → b.cplt.getLsbD 1 = true ∧
    (s.sp.info b.id).tag.isSome = true

theorem zip_congr {s s' : State n M} : ∀ (es : List Entry) (l : List Nat), (∀ u ∈ l, s'.pay u = s.pay u ∧ s'.src u = s.src u ∧
    s'.done u = s.done u ∧ s'.act u = s.act u ∧ s'.wrote u = s.wrote u) → List.zipWith (taskOf s') es l = List.zipWith (taskOf s) es l
  | [], _, _ => by simp
  | _ :: _, [], _ => by simp
  | e :: es, u :: l, h => by
    obtain ⟨h1, h2, h3, h4, h5⟩ := h u List.mem_cons_self
    simp only [List.zipWith_cons_cons, zip_congr es l (fun v hv => h v (List.mem_cons_of_mem _ hv))]
    simp only [taskOf, h1, h2, h3, h4, h5]

theorem zip_keep (s : State n M) (cl : Nat → Bool) : ∀ (es : List Entry) (l : List Nat),
    (List.zipWith (taskOf s) es l).map (Core.keepTag cl) = List.zipWith (taskOf s) (es.map (RenWindow.survive cl)) l
  | [], _ => by simp
  | _ :: _, [] => by simp
  | e :: es, u :: l => by
    simp only [List.map_cons, List.zipWith_cons_cons, zip_keep s cl es l]; rfl

theorem zip_pcs (s : State n M) : ∀ (es : List Entry) (l : List Nat), es.length = l.length →
    (List.zipWith (taskOf s) es l).map (fun t => t.pc) = l.map (fun u => (s.pay u).1)
  | [], [], _ => rfl
  | [], _ :: _, h => by simp at h
  | _ :: _, [], h => by simp at h
  | e :: es, u :: l, h => by
    simp only [List.zipWith_cons_cons, List.map_cons, zip_pcs s es l (by simpa using h)]; rfl

theorem after_pcs (σ : Isa M) : ∀ (l : List Task), Core.after prog σ l = (l.map (fun t => t.pc)).foldl (fun σ p => Core.exec (prog p) σ) σ := by
  intro l
  unfold Core.after
  rw [List.foldl_map]

theorem cut_zip (s : State n M) (t : Nat) (e : Entry) (b : Nat) (Y : List Entry) (L : List Nat) (he : e.tag = some t) :
    ∀ (X : List Entry) (K : List Nat), X.length = K.length → (∀ x ∈ X, x.tag ≠ some t) →
    Core.cut t (List.zipWith (taskOf s) (X ++ e :: Y) (K ++ b :: L)) =
      List.zipWith (taskOf s) X K ++ [{ taskOf s e b with pn := s.act b }] ∧
    ∀ d, Core.redirect t d (List.zipWith (taskOf s) (X ++ e :: Y) (K ++ b :: L)) = s.act b
  | [], [], _, _ => by
    refine ⟨?_, fun d => ?_⟩
    · show (if e.tag = some t then _ else _) = _
      rw [if_pos he]; rfl
    · show (if e.tag = some t then _ else _) = _
      rw [if_pos he]; rfl
  | [], _ :: _, h, _ => by simp at h
  | _ :: _, [], h, _ => by simp at h
  | x :: X, m :: K, h, hx => by
    obtain ⟨h1, h2⟩ := cut_zip s t e b Y L he X K (by simpa using h) (fun x hx' => hx x (List.mem_cons_of_mem _ hx'))
    have hn := hx x List.mem_cons_self
    refine ⟨?_, fun d => ?_⟩
    · show (if x.tag = some t then _ else _) = _
      rw [if_neg hn]; exact congrArg (taskOf s x m :: ·) h1
    · show (if x.tag = some t then _ else _) = _
      rw [if_neg hn]; exact h2 d

section
variable {k : Cfg} {s : State n M} {c : Input n M}
variable {bw : BranchWindow.Sys n} {rw : RenWindow.Sys} {Z : List (Flight n × Sig)} {g : Nat → BitVec 3}

theorem culprit_none (hm : s.sp.idu.latch.mispred = false) : culprit k s = none := by
  unfold culprit; rw [hm]; rfl

/-- The payload of what is in flight stays. -/
theorem pay_old (hlt : u < s.sp.next) (hc : culprit k s ≠ some u) : (cycle prog k s c).pay u = s.pay u := by
  show (if culprit k s = some u then _ else pay1 k s c u) = _
  rw [if_neg hc]
  unfold pay1; rw [if_pos hlt]

theorem src_eq (k : Cfg) (s : State n M) (c : Input n M) (u : Nat) : (cycle prog k s c).src u =
    if (disOut k s.sp c.hw).ready then
      (((sources (renSlots k s.sp) s.sp.lat).find? (fun x => x.1 == u)).map Prod.snd).getD (s.src u) else s.src u := by
  show (if (disOut k s.sp c.hw).ready then _ else s.src : Nat → Nat × Nat) u = _
  split <;> rfl

theorem src_old (hu : ∀ d, some d ∈ s.sp.lat → d.uid ≠ u) (hl : Link k s.sp bw rw Z g) :
    (cycle prog k s c).src u = s.src u := by
  obtain ⟨h1, h2⟩ := hl.slots
  obtain ⟨_, _, _, _, e5, _⟩ := group_facts _ _ h1 h2
  rw [src_eq]
  split
  · rw [sources_taken, find_absent]
    · rfl
    · intro hmem
      rw [List.map_map] at hmem
      obtain ⟨x, hx, he⟩ := List.mem_map.1 hmem
      have : x.1 ∈ s.sp.lat.filterMap id := by rw [e5]; exact List.mem_append_left _ (List.mem_map_of_mem hx)
      obtain ⟨o, ho, he'⟩ := List.mem_filterMap.1 this
      exact hu x.1 (by rw [← show o = some x.1 from he']; exact ho) he
  · rfl

theorem taken_mem (hl : Link k s.sp bw rw Z g) {x} (hx : x ∈ taken (renSlots k s.sp) s.sp.lat) : some x.1 ∈ s.sp.lat := by
  obtain ⟨h1, h2⟩ := hl.slots
  obtain ⟨_, _, _, _, e5, _⟩ := group_facts _ _ h1 h2
  have : x.1 ∈ s.sp.lat.filterMap id := by rw [e5]; exact List.mem_append_left _ (List.mem_map_of_mem hx)
  obtain ⟨o, ho, he'⟩ := List.mem_filterMap.1 this
  rw [← show o = some x.1 from he']; exact ho

theorem src_new (hl : Link k s.sp bw rw Z g) (hR : (disOut k s.sp c.hw).ready = true) {x}
    (hx : x ∈ taken (renSlots k s.sp) s.sp.lat) : (cycle prog k s c).src x.1.uid = (x.2.p1, x.2.p2) := by
  obtain ⟨h1, h2⟩ := hl.slots
  obtain ⟨_, _, _, _, e5, _⟩ := group_facts _ _ h1 h2
  have hn := hl.latNodup
  rw [e5, List.map_append] at hn
  have hn := (List.nodup_append.1 hn).1
  rw [src_eq, if_pos hR, sources_taken, find_nodup (b := (x.2.p1, x.2.p2))]
  · rfl
  · rw [List.map_map]; rw [List.map_map] at hn; exact hn
  · exact List.mem_map.2 ⟨x, hx, rfl⟩

theorem retire_le (hk : Good k) (hl : Link k s.sp bw rw Z g) (c : Input n M) :
    (Spine.retired s.sp c.hw).length ≤ (ids k s).length := by
  have := congrArg List.length (retired_ids hk hl c)
  rw [List.length_map, List.length_take] at this; omega

theorem core_retired (hk : Good k) (hl : Link k s.sp bw rw Z g) (c : Input n M) :
    (Core.retired (coreOf s rw (ids k s)) (cycOf k s c)).map (fun t => t.pc) = (retiredIds s c).map (fun u => (s.pay u).1) := by
  unfold Core.retired retiredIds
  show (if ((Spine.retired s.sp c.hw).any Rob.isExc || interrupt s.sp c.hw) = true then [] else
    (List.zipWith (taskOf s) rw.win (ids k s)).take (Spine.retired s.sp c.hw).length).map _ = _
  split
  · rfl
  · rw [List.map_take, zip_pcs s _ _ (ids_length hl), ← List.map_take, retired_ids hk hl c]

/-- One cycle of the stages is one cycle of `Core`. -/
theorem cycle_eq (hk : Good k) (hi : Inv prog k s) (hl : Link k s.sp bw rw Z g) (hv : Valid prog k s c) :
    Core.cycle prog k.P k.A n (coreOf s rw (ids k s)) (cycOf k s c) =
      coreOf (cycle prog k s c) (RenWindow.stepSys k.P k.A n rw (iR k s.sp c.hw)) (ids k (cycle prog k s c)) := by
  have hslots : Ren.renameGroup k.P rw.regs rw.insts = renSlots k s.sp := by rw [hl.regs, hl.latch]; rfl
  obtain ⟨hs1, hs2⟩ := hl.slots
  have hslen : (renSlots k s.sp).length = s.sp.lat.length := by
    have := congrArg List.length hs1; simpa using this
  have hpcs := core_retired hk hl c
  have hwl := ids_length hl
  have hlatpay : s.sp.idu.latch.mispred = false → ∀ d, some d ∈ s.sp.lat → (cycle prog k s c).pay d.uid = s.pay d.uid := by
    intro hm d hd
    exact pay_old (lat_lt hk hi.reach hd) (by rw [culprit_none hm]; simp)
  refine core_ext ?_ ?_ ?_ rfl ?_ ?_ ?_
  · show RenWindow.stepSys k.P k.A n rw (Core.toInput prog (cycOf k s c)) = _
    rw [input_eq hv]; rfl
  · -- the slots of rename
    show (if (flush s.sp c.hw || (mispred s.sp).isSome) = true then (Ren.renameGroup k.P rw.regs rw.insts).map (fun _ => none)
      else if Ren.readyOut (Ren.renameGroup k.P rw.regs rw.insts) (disOut k s.sp c.hw).ready (flush s.sp c.hw) (mispred s.sp) = true
        then (if renReady k s.sp c.hw then fetched k s c else [])
      else Core.keptSlots (disOut k s.sp c.hw).ready (Ren.renameGroup k.P rw.regs rw.insts) (latOf s)) =
      (latNext k s.sp c.hw).map _
    rw [hslots]
    unfold latNext
    simp only
    by_cases hfm : (flush s.sp c.hw || (mispred s.sp).isSome) = true
    · rw [if_pos hfm, if_pos hfm, List.map_map]
      apply List.ext_getElem
      · simp [hslen]
      · intro i h1 h2; simp
    · rw [if_neg hfm, if_neg hfm]
      have hm : s.sp.idu.latch.mispred = false := by
        cases h : s.sp.idu.latch.mispred with
        | false => rfl
        | true => rw [mispred_isSome, h] at hfm; simp at hfm
      by_cases hrr : renReady k s.sp c.hw = true
      · have : Ren.readyOut (renSlots k s.sp) (disOut k s.sp c.hw).ready (flush s.sp c.hw) (mispred s.sp) = true := hrr
        rw [if_pos this, if_pos hrr, if_pos hrr, List.map_map]
        unfold fetched
        apply List.map_congr_left
        intro o ho
        cases o with
        | none => rfl
        | some d =>
          have hp : (cycle prog k s c).pay d.uid = pay1 k s c d.uid := by
            show (if culprit k s = some d.uid then _ else _) = _
            rw [culprit_none hm, if_neg (by simp)]
          simp only [Option.map_some, Function.comp, scrub, hp]
      · have : ¬ Ren.readyOut (renSlots k s.sp) (disOut k s.sp c.hw).ready (flush s.sp c.hw) (mispred s.sp) = true := hrr
        rw [if_neg this, if_neg hrr]
        exact kept_lat _ _ _ _ _ _ (hlatpay hm)
  · -- the window
    show (if flush s.sp c.hw then [] else match mispred s.sp with
      | some t => (Core.cut t (List.zipWith (taskOf s) rw.win (ids k s))).map (Core.keepTag fun t => s.sp.idu.latch.clear.getLsbD t)
      | none => ((List.zipWith (taskOf s) rw.win (ids k s)).drop (Spine.retired s.sp c.hw).length ++
          if (disOut k s.sp c.hw).ready then Core.newTasks (Ren.renameGroup k.P rw.regs rw.insts) (latOf s) else []).map
            (Core.keepTag fun t => s.sp.idu.latch.clear.getLsbD t)) =
      List.zipWith (taskOf (cycle prog k s c)) (if flush s.sp c.hw then [] else match mispred s.sp with
        | some t => (RenWindow.upTo t rw.win).map (RenWindow.survive fun t => s.sp.idu.latch.clear.getLsbD t)
        | none => (rw.win.drop (Spine.retired s.sp c.hw).length ++ (if (disOut k s.sp c.hw).ready then
            entries (Ren.renameGroup k.P rw.regs rw.insts) else [])).map
              (RenWindow.survive fun t => s.sp.idu.latch.clear.getLsbD t)) (ids k (cycle prog k s c))
    cases hf : flush s.sp c.hw with
    | true => simp
    | false =>
      simp only [Bool.false_eq_true, if_false]
      cases hm : s.sp.idu.latch.mispred with
      | true =>
        have hmp : mispred s.sp = some s.sp.idu.latch.brId := by simp [mispred, hm]
        obtain ⟨X, z, Y, hXY, hzt, hX, hcul, hids⟩ := mis_split (prog := prog) hk hi.reach hl hv.hw hm
        rw [hmp, hids]
        simp only
        have hw : rw.win = X.map (fun z => ent s.sp.info z.1) ++ ent s.sp.info z.1 ::
            (Y.map (fun z => ent s.sp.info z.1) ++ (waiting s.sp.dis).map (fun u => s.sp.info u.ftq)) := by
          rw [hl.rwin, hXY]; simp
        have hi' : ids k s = X.map (fun z => z.1.seq) ++ z.1.seq :: (Y.map (fun z => z.1.seq) ++ disIds s.sp) := by
          rw [ids_seq hl, hXY]; simp
        have hX' : ∀ x ∈ X.map (fun z => ent s.sp.info z.1), x.tag ≠ some s.sp.idu.latch.brId := by
          intro x hx
          obtain ⟨y, hy, rfl⟩ := List.mem_map.1 hx
          exact hX y hy
        rw [hw, hi', (cut_zip s _ _ _ _ _ hzt _ _ (by simp) hX').1, upTo_ent hzt _ hX', List.map_append, zip_keep,
          List.map_append, List.zipWith_append (by simp)]
        have hord := (C106_ordered hk hi.reach).1
        rw [inflight_eq, hi', List.append_assoc, List.pairwise_append] at hord
        congr 1
        · refine (zip_congr (s' := cycle prog k s c) _ _ fun u hu => ?_).symm
          have hmem : u ∈ ids k s := by rw [hi']; exact List.mem_append_left _ hu
          refine ⟨pay_old (ids_lt hk hi.reach hmem) ?_, src_old (fun d hd => ?_) hl, rfl, rfl, rfl⟩
          · rw [hcul]
            intro he
            have := hord.2.2 u hu z.1.seq (by simp)
            cases he; omega
          · have := ids_lat hk hi.reach hmem hd; omega
        · have hmem : z.1.seq ∈ ids k s := by rw [hi']; simp
          have hp : (cycle prog k s c).pay z.1.seq = ((s.pay z.1.seq).1, s.act z.1.seq) := by
            show (if culprit k s = some z.1.seq then _ else _) = _
            rw [hcul, if_pos rfl]
          have hsr : (cycle prog k s c).src z.1.seq = s.src z.1.seq :=
            src_old (fun d hd => by have := ids_lat hk hi.reach hmem hd; omega) hl
          simp only [List.map_cons, List.map_nil, List.zipWith_cons_cons, List.zipWith_nil_right, List.cons.injEq, and_true]
          simp only [taskOf, Core.keepTag, hp, hsr]
          rfl
      | false =>
        have hmp : mispred s.sp = none := by simp [mispred, hm]
        obtain ⟨e1, _, _, _, e5, _⟩ := group_facts _ _ hs1 hs2
        rw [hmp, ids_run (prog := prog) hk hi.reach hl hv.hw hf hm]
        simp only
        rw [hslots, List.map_append, List.map_append, List.drop_zipWith, zip_keep,
          List.zipWith_append (by rw [List.length_map, List.length_drop, List.length_drop, hwl])]
        congr 1
        · refine (zip_congr (s' := cycle prog k s c) _ _ fun u hu => ?_).symm
          have hmem : u ∈ ids k s := List.mem_of_mem_drop hu
          exact ⟨pay_old (ids_lt hk hi.reach hmem) (by rw [culprit_none hm]; simp),
            src_old (fun d hd => by have := ids_lat hk hi.reach hmem hd; omega) hl, rfl, rfl, rfl⟩
        · by_cases hR : (disOut k s.sp c.hw).ready = true
          · rw [if_pos hR, if_pos hR, if_pos hR, e1]
            unfold latOf
            rw [newTasks_taken s.pay _ _ hs1, List.map_map, List.map_map, List.zipWith_map, List.zipWith_self]
            apply List.map_congr_left
            intro x hx
            have hmem := taken_mem hl hx
            obtain ⟨_, hd, ha, hw⟩ := hi.lat _ hmem
            have hp := hlatpay hm _ hmem
            have hsr := src_new (prog := prog) (c := c) hl hR hx
            have hd' : (cycle prog k s c).done x.1.uid = false := hd
            have ha' : (cycle prog k s c).act x.1.uid = 0#32 := ha
            have hw' : (cycle prog k s c).wrote x.1.uid = false := hw
            simp only [Function.comp, taskOf, Core.keepTag, hp, hsr, hd', ha', hw']
          · rw [if_neg hR, if_neg hR, if_neg hR]; rfl
  · -- where the front end goes on
    show (if flush s.sp c.hw then c.target else match mispred s.sp with
      | some t => Core.redirect t s.expect (List.zipWith (taskOf s) rw.win (ids k s))
      | none => if Ren.readyOut (Ren.renameGroup k.P rw.regs rw.insts) (disOut k s.sp c.hw).ready (flush s.sp c.hw) (mispred s.sp) = true
        then Core.pathEnd s.expect (if renReady k s.sp c.hw then fetched k s c else []) else s.expect) =
      (if flush s.sp c.hw then c.target else match culprit k s with
        | some u => s.act u
        | none => if renReady k s.sp c.hw then Core.pathEnd s.expect (fetched k s c) else s.expect)
    rw [hslots]
    cases hf : flush s.sp c.hw with
    | true => rfl
    | false =>
      simp only [Bool.false_eq_true, if_false]
      cases hm : s.sp.idu.latch.mispred with
      | true =>
        have hmp : mispred s.sp = some s.sp.idu.latch.brId := by simp [mispred, hm]
        obtain ⟨X, z, Y, hXY, hzt, hX, hcul, hids⟩ := mis_split (prog := prog) hk hi.reach hl hv.hw hm
        rw [hmp, hcul]
        simp only
        have hw : rw.win = X.map (fun z => ent s.sp.info z.1) ++ ent s.sp.info z.1 ::
            (Y.map (fun z => ent s.sp.info z.1) ++ (waiting s.sp.dis).map (fun u => s.sp.info u.ftq)) := by
          rw [hl.rwin, hXY]; simp
        have hi' : ids k s = X.map (fun z => z.1.seq) ++ z.1.seq :: (Y.map (fun z => z.1.seq) ++ disIds s.sp) := by
          rw [ids_seq hl, hXY]; simp
        rw [hw, hi']
        refine (cut_zip s _ _ _ _ _ ?_ _ _ (by simp) ?_).2 _
        · exact hzt
        · intro x hx
          obtain ⟨y, hy, rfl⟩ := List.mem_map.1 hx
          exact hX y hy
      | false =>
        have hmp : mispred s.sp = none := by simp [mispred, hm]
        have e : Ren.readyOut (renSlots k s.sp) (disOut k s.sp c.hw).ready false (mispred s.sp) = renReady k s.sp c.hw := by
          unfold renReady; rw [hf]
        rw [e, hmp, culprit_none hm]
        simp only
        by_cases hrr : renReady k s.sp c.hw = true
        · simp only [hrr, if_true]
        · simp only [hrr]; rfl
  · show s.past ++ (Core.retired (coreOf s rw (ids k s)) (cycOf k s c)).map (fun t => Item.inst t.pc) ++ _ = s.past ++ _ ++ _
    have : (Core.retired (coreOf s rw (ids k s)) (cycOf k s c)).map (fun t => (Item.inst t.pc : Item M)) =
        (retiredIds s c).map (fun u => Item.inst (s.pay u).1) := by
      have := congrArg (List.map (Item.inst (M := M))) hpcs
      rw [List.map_map, List.map_map] at this; exact this
    rw [this]; rfl
  · have : Core.after prog s.isa (Core.retired (coreOf s rw (ids k s)) (cycOf k s c)) = isaAfter prog s (retiredIds s c) := by
      rw [after_pcs, hpcs, List.foldl_map]; rfl
    show (if flush s.sp c.hw then (⟨c.target, (Core.after prog s.isa (Core.retired (coreOf s rw (ids k s)) (cycOf k s c))).regs,
      c.g (Core.after prog s.isa (Core.retired (coreOf s rw (ids k s)) (cycOf k s c))).ext⟩ : Isa M)
      else Core.after prog s.isa (Core.retired (coreOf s rw (ids k s)) (cycOf k s c))) = _
    rw [this]; rfl

end
end Verif.WholeProofs

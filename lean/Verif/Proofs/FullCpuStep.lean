import Verif.Proofs.FullCpu
/-
The invariant is kept by every cycle.
-/
namespace Verif.FullCpuProofs
open Verif.FullCpu
open Verif.Spine Verif.SpineProofs Verif.WholeProofs
open Verif.Core (W Sem Fetched)
open Verif.HandOff (Insn)
open Verif.FetchStream (Ev)
open Verif.FetchWindow (Flight)
open Verif.ICache (World)
open Verif.Decode (decodeEntry)

variable {F n : Nat} {M : Type} {k : FullCpu.Cfg} {prog : W → Sem M}
variable {tr : List (Ev F Nat)} {w w' : World} {s s' : FullCpu.State F n M} {c : FullCpu.Cyc F n M} {e : Ev F Nat}

/-! ### Lists -/

theorem mark_pcs : ∀ l : List Flight, (FetchWindow.markLast l).map (·.entry.pc) = l.map (·.entry.pc)
  | [] => rfl
  | [_] => rfl
  | f :: g :: l => by
    show f.entry.pc :: (FetchWindow.markLast (g :: l)).map _ = _
    rw [mark_pcs (g :: l)]; rfl

theorem backOut_facts (old : HandOff.BackOut) (f m r : Bool) (pc : W) (fe : Bool) :
    (f = true → (HandOff.backOut old f m r pc fe).redirect = true) ∧
    (f = false → (HandOff.backOut old f m r pc fe).redirect = m) ∧
    (HandOff.backOut old f m r pc fe).pc = pc ∧ (HandOff.backOut old f m r pc fe).fenceI = fe := by
  cases f
  · exact ⟨fun h => (by cases h), fun _ => rfl, rfl, rfl⟩
  · exact ⟨fun _ => rfl, fun h => (by cases h), rfl, rfl⟩

theorem filter_take {u : Nat} : ∀ {l : List Nat}, l.Pairwise (· < ·) → u ∈ l → l.filter (· ≤ u) = l.take (l.idxOf u + 1)
  | [], _, h => by cases h
  | x :: l, hp, h => by
    rw [List.pairwise_cons] at hp
    by_cases hx : x = u
    · subst hx
      rw [List.idxOf_cons_self, List.filter_cons_of_pos (by simp), List.filter_eq_nil_iff.2]
      · rfl
      · intro y hy
        have := hp.1 y hy
        simp; omega
    · have hu : u ∈ l := (List.mem_cons.1 h).resolve_left (fun h => hx h.symm)
      have := hp.1 u hu
      rw [List.filter_cons_of_pos (by simp; omega), filter_take hp.2 hu, List.idxOf_cons, show (x == u) = false from by simpa using hx]
      rfl

/-! ### Decoding -/

/-- What decode takes, as the back end sees it. -/
theorem path_pairs {m : Nat} {l : List Flight} (h : Whole.fresh k.back s.be (input k s c) = (l.take m).map pair) (a : W) :
    (Core.Path a (Whole.fetched k.back s.be (input k s c)) ↔
      Core.Path a ((l.take m).map fun f => some ⟨f.entry.pc, (Insn.of f).pn, 0⟩)) ∧
    Core.pathEnd a (Whole.fetched k.back s.be (input k s c)) = ((l.take m).getLast?.map fun f => (Insn.of f).pn).getD a := by
  obtain ⟨h1, h2⟩ := path_filter (Whole.fetched k.back s.be (input k s c)) a
  have h3 := fetched_pairs (k := k) (s := s) c
  obtain ⟨h4, h5⟩ := path_congr ((Whole.fetched k.back s.be (input k s c)).filterMap id)
    ((l.take m).map fun f => ⟨f.entry.pc, (Insn.of f).pn, 0⟩) a (by rw [h3, h, List.map_map]; rfl)
  rw [List.map_map] at h4
  refine ⟨h1.trans h4, ?_⟩
  rw [h2, h5, pathEnd_last, List.getLast?_map, Option.map_map]
  rfl

theorem consumed_eq {m : Nat} (h : ((decSlots k.back s.be.sp (input k s c).hw).takeWhile (·.valid)).length = m)
    (hf : flush s.be.sp (input k s c).hw = false) (hm : s.be.sp.idu.latch.mispred = false) :
    consumed k s c = if renReady k.back s.be.sp (input k s c).hw then m else 0 := by
  unfold consumed
  rw [hf, hm, h]
  cases renReady k.back s.be.sp (input k s c).hw <;> rfl

theorem next_eq {m : Nat} (h : ((decSlots k.back s.be.sp (input k s c).hw).filter (·.valid)).length = m)
    (hf : flush s.be.sp (input k s c).hw = false) (hm : s.be.sp.idu.latch.mispred = false) :
    accepted k.back s.be.sp (input k s c).hw =
      List.range' s.be.sp.next (if renReady k.back s.be.sp (input k s c).hw then m else 0) := by
  unfold accepted
  have : (Spine.step k.back s.be.sp (input k s c).hw).next - s.be.sp.next =
      (Idu.fired s.be.sp.idu (decSlots k.back s.be.sp (input k s c).hw) (renReady k.back s.be.sp (input k s c).hw)
        (flush s.be.sp (input k s c).hw)).length := by
    show s.be.sp.next + _ - s.be.sp.next = _
    omega
  rw [this]
  unfold Idu.fired
  rw [hf, hm]
  cases renReady k.back s.be.sp (input k s c).hw
  · rfl
  · show List.range' _ (List.filter _ _).length = _
    rw [h]; rfl

/-! ### What the back end assumes -/

section
variable [NeZero F]

theorem whole_valid (hk : GoodCfg F k) (hh : HandOff.Reach k.front k.buf k.ftq tr w s.fe) (hI : Inv k tr s)
    (ok : Ok k prog w s c) : Whole.Valid prog k.back s.be (input k s c) := by
  have hq := (HandOff.reach_all hk.cap hh).2.1
  obtain ⟨m, h1, h2, _, _⟩ := takes (s := s) hk.buf hk.ftq hq c
  have hsub : ∀ f ∈ s.fe.q.wait.take m, f ∈ s.fe.q.wait := fun f hf => List.mem_of_mem_take hf
  refine ⟨spine_valid hk hq ok, ok.flag, by simp [input], ?_, ok.ran, ok.branch, fun _ => ?_, fun _ f hf hb hs a b c' => ?_⟩
  · intro i wd pf a hi ha
    have hi : ((issue k s).map (Option.map fun e => (e.inst, e.pageFault)))[i]? = some (some (wd, pf)) := hi
    have ha : ((issue k s).map fun o => (o.map (address s)).getD (0#32, 0#32))[i]? = some a := ha
    rw [List.getElem?_map, Option.map_eq_some_iff] at hi ha
    obtain ⟨o, ho, e1⟩ := hi
    obtain ⟨o', ho', e2⟩ := ha
    rw [ho] at ho'; cases ho'
    obtain ⟨x, rfl, e1⟩ := Option.map_eq_some_iff.1 e1
    have hmem := List.mem_of_getElem? ho
    rw [issue_eq hk.buf hk.ftq hq, List.mem_append] at hmem
    rcases hmem with hmem | hmem
    · obtain ⟨f, hf, e3⟩ := List.mem_map.1 hmem
      cases e3
      have hf := List.mem_of_mem_take hf
      have e2 : address s f.entry = a := e2
      rw [address_eq hk.buf hk.ftq hq hf] at e2
      subst e2
      cases e1
      exact (insn_facts hk hh hI ok.holds hf).1
    · have := List.eq_of_mem_replicate hmem
      cases this
  · obtain ⟨p1, _⟩ := path_pairs (c := c) h2 s.be.expect
    rw [p1]
    cases hr : s.fe.bo.redirect with
    | true =>
      have := ((Props.C111_exact hk.cap hh).1 hr).2
      rw [this]
      rw [List.take_nil]
      trivial
    | false =>
      rw [hI.goes hr]
      exact Props.C111_core hk.cap hk.line hk.width hh
        (fun f hf => hI.four (Insn.of f) (wait_mem hk hh hf).2) m (fun _ => 0)
  · have hmem : (f.pc, f.pn) ∈ (s.fe.q.wait.take m).map pair := by
      rw [← h2, ← fetched_pairs]
      exact List.mem_map.2 ⟨f, List.mem_filterMap.2 ⟨some f, hf, rfl⟩, rfl⟩
    obtain ⟨x, hx, e1⟩ := List.mem_map.1 hmem
    have e2 : x.entry.pc = f.pc := congrArg Prod.fst e1
    have e3 : (Insn.of x).pn = f.pn := congrArg Prod.snd e1
    have := (insn_facts hk hh hI ok.holds (hsub x hx)).2
    rw [e2, e3] at this
    exact this hb hs a b c'

/-! ### One cycle -/

omit [NeZero F] in
/-- The queues in front of decode stay with the window. -/
theorem flights_step (hk : GoodCfg F k) (hr : Spine.Reach k.back s.be.sp) (hq : FetchWindow.Reach k.buf k.ftq s.fe.q)
    (hI : Inv k tr s) (hv : Spine.Valid k.back s.be.sp (input k s c).hw) {b : HandOff.Slots F Nat} {q : FetchWindow.Sys}
    (hs : FetchWindow.step k.buf k.ftq s.fe.q (HandOff.window b (back k s c)) = some q) :
    q.flight.map (·.entry.pc) = (inflight k.back (Spine.step k.back s.be.sp (input k s c).hw)).map
      fun u => ((Whole.cycle prog k.back s.be (input k s c)).pay u).1 := by
  have hord := Props.C106_ordered hk.back hr
  have hfl : s.fe.q.flight.map (·.entry.pc) = (inflight k.back s.be.sp).map fun u => (s.be.pay u).1 := hI.flights
  have hold : ∀ l : List Nat, (∀ u ∈ l, u ∈ inflight k.back s.be.sp) →
      l.map (fun u => ((Whole.cycle prog k.back s.be (input k s c)).pay u).1) = l.map fun u => (s.be.pay u).1 :=
    fun l h => List.map_congr_left fun u hu => pc_old (hord.2 u (h u hu))
  unfold FetchWindow.step at hs
  obtain ⟨pre, _, rfl⟩ := Option.map_eq_some_iff.1 hs
  show List.map _ (if flush s.be.sp (input k s c).hw = true then _ else _ : FetchWindow.Sys).flight = _
  cases hf : flush s.be.sp (input k s c).hw with
  | true => rw [Props.C106_flush hk.back hr hv hf]; rfl
  | false =>
    rw [if_neg (by simp)]
    cases hm : s.be.sp.idu.latch.mispred with
    | true =>
      obtain ⟨u, hu, hc, _, _, _, hin⟩ := culprit_iff hk.back hr hv hm
      have hmp : (HandOff.window b (back k s c)).mispred = some ((inflight k.back s.be.sp).idxOf u) := by
        show (Whole.culprit k.back s.be).map _ = _
        rw [hc]; rfl
      rw [hmp]
      show (FetchWindow.markLast _).map _ = _
      rw [mark_pcs, List.map_take, hfl, hin, filter_take hord.1 hu, ← List.map_take, hold _ fun x hx => List.mem_of_mem_take hx]
    | false =>
      have hmp : (HandOff.window b (back k s c)).mispred = none := by
        show (Whole.culprit k.back s.be).map _ = _
        rw [culprit_none hm]; rfl
      rw [hmp]
      show (s.fe.q.flight.drop (retired s.be.sp (input k s c).hw).length ++ s.fe.q.wait.take (consumed k s c)).map _ = _
      obtain ⟨m, h1, h2, h3, h4⟩ := takes (s := s) hk.buf hk.ftq hq c
      have hcons := Props.C106_conserved hk.back hr hv hf hm
      have hlen := retire_le (c := c) hk.back hr
      have hin : inflight k.back (Spine.step k.back s.be.sp (input k s c).hw) =
          (inflight k.back s.be.sp).drop (retired s.be.sp (input k s c).hw).length ++ accepted k.back s.be.sp (input k s c).hw := by
        have := congrArg (List.drop (retired s.be.sp (input k s c).hw).length) hcons
        rwa [List.drop_left' (by simp), List.drop_append_of_le_length hlen] at this
      rw [hin, List.map_append, List.map_append, hold _ fun x hx => List.mem_of_mem_drop hx, List.map_drop, List.map_drop, hfl,
        consumed_eq h4 hf hm, next_eq h3 hf hm]
      congr 1
      cases renReady k.back s.be.sp (input k s c).hw with
      | false => rfl
      | true =>
        have hlen2 : (Whole.fresh k.back s.be (input k s c)).length = m := by
          rw [h2, List.length_map, List.length_take]; omega
        show (s.fe.q.wait.take m).map _ = (List.range' s.be.sp.next m).map _
        have hg := congrArg (List.map Prod.fst) (map_getD s.be.sp.next (0#32, 0#32) (Whole.fresh k.back s.be (input k s c)))
        rw [hlen2, List.map_map] at hg
        have e1 : (s.fe.q.wait.take m).map (·.entry.pc) = (Whole.fresh k.back s.be (input k s c)).map Prod.fst := by
          rw [h2, List.map_map]; rfl
        rw [e1, ← hg]
        apply List.map_congr_left
        intro u hu
        rw [List.mem_range'_1] at hu
        show _ = (if Whole.culprit k.back s.be = some u then _ else Whole.pay1 k.back s.be (input k s c) u : W × W).1
        rw [culprit_none hm, if_neg (by simp)]
        unfold Whole.pay1
        rw [if_neg (by omega)]
        rfl

theorem step_all (hk : GoodCfg F k) {prf : Nat → W} {m0 : M} (hh : HandOff.Reach k.front k.buf k.ftq tr w s.fe)
    (hw : Whole.Reach prog k.back (Whole.init n k.back prf k.front.resetPc m0) s.be) (hI : Inv k tr s)
    (ok : Ok k prog w s c) (hn : Fetch.NextW w w' (HandOff.drive s.fe.bo c.inp)) (hc : cycle k prog s c = some (s', e))
    (h4' : Four e) :
    HandOff.Reach k.front k.buf k.ftq (e :: tr) w' s'.fe ∧
    Whole.Reach prog k.back (Whole.init n k.back prf k.front.resetPc m0) s'.be ∧ Inv k (e :: tr) s' := by
  have hq := (HandOff.reach_all hk.cap hh).2.1
  have hr := (simulate hk.back hw).1.reach
  have hv := whole_valid hk hh hI ok
  unfold cycle at hc
  obtain ⟨⟨fe', e'⟩, hc', he⟩ := Option.map_eq_some_iff.1 hc
  cases he
  have hfe : HandOff.Reach k.front k.buf k.ftq (e' :: tr) w' fe' :=
    .step c.inp (back k s c) hh hc' ⟨⟨ok.mmu, ok.resp, ok.probe, ok.acc, hI.fence⟩, hn, window_valid hk hr hq hI hv.hw _⟩
  refine ⟨hfe, .cycle _ hw hv, ?_⟩
  obtain ⟨fr, resp, o, q, h1, h2, rfl, h4⟩ := HandOff.cycle_parts hc'
  have hgot : fe'.got = if fe'.bo.redirect then [] else s.fe.got ++ s.fe.q.wait.take (consumed k s c) := by rw [h4]; rfl
  have hqq : fe'.q = q := by rw [h4]
  have hbo : (flush s.be.sp (input k s c).hw = true → fe'.bo.redirect = true ∧ fe'.bo.pc = c.target) ∧
      (flush s.be.sp (input k s c).hw = false → fe'.bo.redirect = (Whole.culprit k.back s.be).isSome ∧
        fe'.bo.pc = ((Whole.culprit k.back s.be).map s.be.act).getD 0#32) ∧
      (fe'.bo.fenceI = true → flush s.be.sp (input k s c).hw = true) := by
    rw [h4]
    obtain ⟨b1, b2, b3⟩ := backOut_facts s.fe.bo (back k s c).flush (back k s c).mispred.isSome
      (PreIdu.ready k.buf k.ftq s.fe.q.pre ((back k s c).mispred.isSome || (back k s c).sawFlush)
        (HandOff.group (HandOff.take s.fe.bo s.fe.bin o.out))) (back k s c).pc (back k s c).fenceI
    refine ⟨fun hf => ⟨b1 hf, b3.1.trans (if_pos hf)⟩, fun hf => ⟨(b2 hf).trans ?_, b3.1.trans (if_neg (by rw [hf]; simp))⟩, fun h => ?_⟩
    · show ((Whole.culprit k.back s.be).map _).isSome = _
      rw [Option.isSome_map]
    · have h : fenceI k s c = true := b3.2.symm.trans h
      unfold fenceI at h
      rw [Bool.and_eq_true, Bool.and_eq_true] at h
      exact h.1.1
  refine ⟨?_, ?_, ?_, ?_, ?_⟩
  · show fe'.q.flight.map _ = _
    rw [hqq]
    exact flights_step hk hr hq hI hv.hw h2
  · intro hred
    show (if flush s.be.sp (input k s c).hw = true then c.target else _) = fe'.bo.pc
    cases hf : flush s.be.sp (input k s c).hw with
    | true => rw [(hbo.1 hf).2]; rfl
    | false =>
      obtain ⟨b1, b2⟩ := hbo.2.1 hf
      have hred : fe'.bo.redirect = true := hred
      rw [hred] at b1
      obtain ⟨u, hu⟩ := Option.isSome_iff_exists.1 b1.symm
      rw [b2, hu, if_neg (by simp)]; rfl
  · intro hred
    have hred : fe'.bo.redirect = false := hred
    have hf : flush s.be.sp (input k s c).hw = false := by
      cases hf : flush s.be.sp (input k s c).hw with
      | false => rfl
      | true => rw [(hbo.1 hf).1] at hred; cases hred
    obtain ⟨b1, _⟩ := hbo.2.1 hf
    rw [hred] at b1
    have hcul : Whole.culprit k.back s.be = none := by
      cases hx : Whole.culprit k.back s.be with
      | none => rfl
      | some u => rw [hx] at b1; cases b1
    have hm : s.be.sp.idu.latch.mispred = false := by
      cases hm : s.be.sp.idu.latch.mispred with
      | false => rfl
      | true =>
        obtain ⟨u, _, hu, _⟩ := culprit_iff hk.back hr hv.hw hm
        rw [hu] at hcul; cases hcul
    rw [hred] at hgot
    have hgot : fe'.got = s.fe.got ++ s.fe.q.wait.take (consumed k s c) := hgot
    obtain ⟨m, g1, g2, g3, g4⟩ := takes (s := s) hk.buf hk.ftq hq c
    have hex : (Whole.cycle prog k.back s.be (input k s c)).expect =
        ((s.fe.q.wait.take (consumed k s c)).getLast?.map fun f => (Insn.of f).pn).getD s.be.expect := by
      show (if flush s.be.sp (input k s c).hw = true then c.target else match Whole.culprit k.back s.be with
        | some u => s.be.act u
        | none => if renReady k.back s.be.sp (input k s c).hw then Core.pathEnd s.be.expect (Whole.fetched k.back s.be (input k s c))
            else s.be.expect) = _
      rw [hf, if_neg (by simp), hcul, consumed_eq g4 hf hm]
      cases renReady k.back s.be.sp (input k s c).hw with
      | false => rfl
      | true => exact (path_pairs g2 _).2
    show (Whole.cycle prog k.back s.be (input k s c)).expect = _
    rw [hex]
    unfold Props.expected
    rw [hgot, List.getLast?_append]
    cases hl : (s.fe.q.wait.take (consumed k s c)).getLast? with
    | some f => rfl
    | none =>
      show s.be.expect = match s.fe.got.getLast? with
        | some f => (Insn.of f).pn
        | none => HandOff.start k.front.resetPc _
      cases hr : s.fe.bo.redirect with
      | true =>
        rw [((Props.C111_exact hk.cap hh).1 hr).1, hI.gone hr]
        simp [HandOff.start]
      | false =>
        rw [hI.goes hr]
        unfold Props.expected
        cases s.fe.got.getLast? <;> rfl
  · intro hfe
    rw [(hbo.1 (hbo.2.2 hfe)).1]
  · intro x hx
    simp only [HandOff.delivered] at hx
    split at hx
    · cases hx
    · rcases List.mem_append.1 hx with hx | hx
      · exact hI.four x hx
      · cases ho : o.out with
        | none => rw [ho] at hx; cases hx
        | some g =>
          rw [ho] at hx
          obtain ⟨j, hj, _, rfl⟩ := insns_mem hx
          exact h4' g ho j hj

omit [NeZero F] in
theorem inv_init (hk : Good k.back) (prf : Nat → W) (m0 : M) : Inv k [] (init (F := F) n k prf m0) := by
  refine ⟨?_, ?_, fun _ => rfl, ?_, fun x hx => by cases hx⟩
  · have : inflight k.back (Spine.init n k.back) = [] := (Props.win_seq (link_init hk)).symm
    show [] = (inflight k.back (Spine.init n k.back)).map _
    rw [this]; rfl
  · intro h; cases h
  · intro h; cases h

theorem reach_all (hk : GoodCfg F k) {prf : Nat → W} {m0 : M} (h : Reach k prog (init n k prf m0) tr w s) :
    HandOff.Reach k.front k.buf k.ftq tr w s.fe ∧
    Whole.Reach prog k.back (Whole.init n k.back prf k.front.resetPc m0) s.be ∧ Inv k tr s := by
  induction h with
  | init w => exact ⟨.init w, .init, inv_init hk.back prf m0⟩
  | cycle c _ ok hn hc h4 ih => exact step_all hk ih.1 ih.2.1 ih.2.2 ok hn hc h4
  | run _ hr ih => exact ⟨ih.1, .run ih.2.1 hr, ⟨ih.2.2.flights, ih.2.2.gone, ih.2.2.goes, ih.2.2.fence, ih.2.2.four⟩⟩
  | write _ hr ih => exact ⟨ih.1, .write ih.2.1 hr, ⟨ih.2.2.flights, ih.2.2.gone, ih.2.2.goes, ih.2.2.fence, ih.2.2.four⟩⟩

end
end Verif.FullCpuProofs

import Verif.Proofs.BpuBank
import Verif.Proofs.Imm
/- Runs of the branch predictor: queues, pacing, histories in step; the kinds of instructions the back end reports. -/
namespace Verif.Bpu

/-! ### Queues over a run -/

theorem cycle_queue {c : Cfg} {s s' : St} {i : In} {o : Out} (hq : ∀ b, QOk c (s.bank b))
    (h : cycle c s i = some (s', o)) (b : Nat) :
    QOk c (s'.bank b) ∧ o.train b = ((s.bank b).waiting c).head? ∧
      (s'.bank b).waiting c = ((s.bank b).waiting c).tail ++ ofBank c b (i.upds.filterMap id) := by
  obtain ⟨bank, hb, rfl, _, ht⟩ := cycle_after h
  have hp := pushAll_spec i.upds (fun k => (q_pop (hq k)).1) hb b
  refine ⟨hp.1, ?_, ?_⟩
  · rw [ht, List.head?_eq_getElem?, waiting_get]
    have hr := (hq b).rd
    by_cases h0 : (s.bank b).count = 0
    · simp [h0]
    · rw [if_pos (by omega)]
      simp [h0, Nat.mod_eq_of_lt hr]
  · show (bank b).waiting c = _
    rw [hp.2, (q_pop (hq b)).2]

theorem run_cons {c : Cfg} {s s' : St} {i : In} {r : List In} {os : List Out} (h : run c s (i :: r) = some (s', os)) :
    ∃ s1 o os', cycle c s i = some (s1, o) ∧ run c s1 r = some (s', os') ∧ os = o :: os' := by
  unfold run at h
  rcases hc : cycle c s i with _ | ⟨s1, o⟩
  · rw [hc] at h; cases h
  · rw [hc] at h
    rcases hr : run c s1 r with _ | ⟨s2, os'⟩
    · simp [hr] at h
    · simp [hr] at h
      exact ⟨s1, o, os', rfl, by rw [hr, h.1], h.2.symm⟩

theorem run_queue {c : Cfg} (b : Nat) (is : List In) : ∀ {s s' : St} {os : List Out}, (∀ b, QOk c (s.bank b)) →
    run c s is = some (s', os) →
    os.filterMap (fun o => o.train b) ++ (s'.bank b).waiting c = (s.bank b).waiting c ++ ofBank c b (reported is) := by
  induction is with
  | nil =>
    intro s s' os _ h
    simp only [run, Option.some.injEq, Prod.mk.injEq] at h
    obtain ⟨rfl, rfl⟩ := h
    simp [reported, ofBank]
  | cons i r ih =>
    intro s s' os hq h
    obtain ⟨s1, o, os', hc, hr, rfl⟩ := run_cons h
    have hs := fun b => cycle_queue hq hc b
    have := ih (fun b => (hs b).1) hr
    obtain ⟨-, ht, hw⟩ := hs b
    have hrep : reported (i :: r) = i.upds.filterMap id ++ reported r := by simp [reported]
    rw [hrep]
    have hof : ofBank c b (i.upds.filterMap id ++ reported r) = ofBank c b (i.upds.filterMap id) ++ ofBank c b (reported r) := by
      simp [ofBank]
    rw [hof]
    rw [hw] at this
    cases hl : (s.bank b).waiting c with
    | nil =>
      rw [hl] at ht this
      rw [List.filterMap_cons_none (by rw [ht]; rfl), this]
      simp
    | cons u w =>
      rw [hl] at ht this
      rw [List.filterMap_cons_some (by rw [ht]; rfl), List.cons_append, this]
      simp

theorem run_wait {c : Cfg} (b : Nat) (is : List In) : ∀ {s s' : St} {os : List Out} {k : Nat} {u : Upd}, (∀ b, QOk c (s.bank b)) →
    run c s is = some (s', os) → ((s.bank b).waiting c)[k]? = some u → k < is.length →
    os[k]?.map (fun o => o.train b) = some (some u) := by
  induction is with
  | nil => intro s s' os k u _ _ _ hk; simp at hk
  | cons i r ih =>
    intro s s' os k u hq h hu hk
    obtain ⟨s1, o, os', hc, hr, rfl⟩ := run_cons h
    have hs := fun b => cycle_queue hq hc b
    obtain ⟨-, ht, hw⟩ := hs b
    cases k with
    | zero => simp [ht, List.head?_eq_getElem?, hu]
    | succ k =>
      rw [List.getElem?_cons_succ]
      refine ih (fun b => (hs b).1) hr ?_ (by simpa using hk)
      rw [hw]
      have hlen : k < ((s.bank b).waiting c).tail.length := by
        have := (List.getElem?_eq_some_iff.mp hu).1
        simp; omega
      rw [List.getElem?_append_left hlen, List.getElem?_tail, hu]

/-! ### Pacing -/

theorem full_room {c : Cfg} {bank : Nat → QBank} (h : queueFull c bank = false) {k : Nat} (hk : k < c.bankNum) (hp : 0 < c.commitWidth) :
    (bank k).count + c.commitWidth ≤ c.qDepth := by
  unfold queueFull at h
  rw [List.any_eq_false] at h
  have := h k (List.mem_range.mpr hk)
  simp only [decide_eq_true_eq, Nat.not_lt] at this
  omega

theorem pop_count {c : Cfg} (q : QBank) : (q.pop c).count = q.count - 1 := by
  unfold QBank.pop
  split
  · rfl
  · omega

theorem paced_run {c : Cfg} (ok : c.Ok) (steps : List (RobIn × In)) : ∀ {full : Bool} {s : St}, (∀ b, QOk c (s.bank b)) →
    (full = false → ∀ k, k < c.bankNum → (s.bank k).count + c.commitWidth ≤ c.qDepth) → Paced c full s steps →
    (run c s (steps.map Prod.snd)).isSome := by
  induction steps with
  | nil => intro full s _ _ _; rfl
  | cons p r ih =>
    intro full s hq hroom hp
    obtain ⟨r0, i⟩ := p
    cases hp with
    | cons hrow hlen hrest =>
      have hcp := ok.commitPos
      have hqc := ok.qCommit
      have hps : (pushAll c i.upds (fun b => (s.bank b).pop c)).isSome := by
        apply pushAll_room ok
        intro k hk
        right
        rw [pop_count, hlen]
        have hcnt := (hq k).cnt
        cases full with
        | true =>
          have := retires_stalled r0
          omega
        | false =>
          have := retires_le false r0
          rw [hrow] at this
          have := hroom rfl k hk
          omega
      obtain ⟨s', o, hc⟩ := cycle_isSome hps
      have hq' := fun b => (cycle_queue hq hc b).1
      obtain ⟨bank, hb, hs', hf, -⟩ := cycle_after hc
      have := ih hq' (fun hfull k hk => by
        subst hs'
        exact full_room (bank := bank) (by rw [← hf]; exact hfull) hk hcp) (hrest s' o hc)
      obtain ⟨q, hq⟩ := Option.isSome_iff_exists.mp this
      show (run c s (i :: r.map Prod.snd)).isSome = true
      simp [run, hc, hq]

/-! ### The log of a run -/

theorem run_reach {c : Cfg} {pc0 : W32} (is : List In) : ∀ {L : Log} {s s' : St} {os : List Out}, Reach c pc0 L s →
    run c s is = some (s', os) → ∃ L', Reach c pc0 L' s' ∧ L'.retired = L.retired ++ reported is := by
  induction is with
  | nil =>
    intro L s s' os hr h
    simp only [run, Option.some.injEq, Prod.mk.injEq] at h
    obtain ⟨rfl, rfl⟩ := h
    exact ⟨L, hr, by simp [reported]⟩
  | cons i r ih =>
    intro L s s' os hr h
    obtain ⟨s1, o, os', hc, hr', rfl⟩ := run_cons h
    obtain ⟨L', h1, h2⟩ := ih (hr.step hc) hr'
    refine ⟨L', h1, h2.trans ?_⟩
    have : (L.next c s.pc i).retired = L.retired ++ i.upds.filterMap id := by
      unfold Log.next
      cases i.refetch <;> rfl
    rw [this]
    simp [reported]

theorem runLog_reach {c : Cfg} {pc0 : W32} (is : List In) : ∀ {L L' : Log} {s s' : St}, Reach c pc0 L s →
    runLog c is (L, s) = some (L', s') → Reach c pc0 L' s' := by
  induction is with
  | nil =>
    intro L L' s s' hr h
    simp only [runLog, Option.some.injEq, Prod.mk.injEq] at h
    obtain ⟨rfl, rfl⟩ := h
    exact hr
  | cons i r ih =>
    intro L L' s s' hr h
    unfold runLog at h
    rcases hc : cycle c s i with _ | ⟨s1, o⟩
    · simp [hc] at h
    · simp [hc] at h
      exact ih (hr.step hc) h

theorem repair_right (us : List Upd) (h : ∀ u ∈ us, u.predDir = u.dir) : ∀ a s, repair us a s = s := by
  induction us with
  | nil => intro a s; rfl
  | cons u r ih =>
    intro a s
    have := h u (by simp)
    unfold repair
    have hr := ih (fun v hv => h v (by simp [hv]))
    split <;> simp [this, hr]

theorem runLog_predicted {c : Cfg} (is : List In) : ∀ {L L' : Log} {s s' : St},
    (∀ i ∈ is, i.refetch = none) → (∀ u ∈ reported is, u.predDir = u.dir) → runLog c is (L, s) = some (L', s') →
    L'.spec = (predicted c is s).1.reverse ++ L.spec ∧
      L'.calls = (predicted c is s).2.foldl (recentCalls c.rasDepth) L.calls ∧ L'.retired = L.retired ++ reported is := by
  induction is with
  | nil =>
    intro L L' s s' _ _ h
    simp only [runLog, Option.some.injEq, Prod.mk.injEq] at h
    obtain ⟨rfl, rfl⟩ := h
    simp [predicted, reported]
  | cons i r ih =>
    intro L L' s s' hre hd h
    unfold runLog at h
    rcases hc : cycle c s i with _ | ⟨s1, o⟩
    · simp [hc] at h
    · simp [hc] at h
      have hrep : reported (i :: r) = i.upds.filterMap id ++ reported r := by simp [reported]
      rw [hrep] at hd
      obtain ⟨h1, h2, h3⟩ := ih (fun j hj => hre j (by simp [hj])) (fun u hu => hd u (by simp [hu])) h
      have hn := hre i (by simp)
      have hrp := repair_right (i.upds.filterMap id) (fun u hu => hd u (List.mem_append_left _ hu))
      unfold predicted
      rw [hc]
      dsimp only
      rw [h1, h2, h3, hrep]
      unfold Log.next
      rw [hn]
      dsimp only
      rw [hrp]
      cases i.ready
      · simp
      · refine ⟨by simp, ?_, by simp⟩
        simp only [if_true]
        cases groupOp (slots c s.pc true i) <;> simp

theorem same_of_reps {c : Cfg} {l : List Br} {h h' : GHist} (r : Reps c l h) (r' : Reps c l h') : Same c h h' where
  ghr i hi := by rw [r.ghr i hi, r'.ghr i hi]
  fh k hk i hi := by
    apply BitVec.eq_of_getLsbD_eq
    intro j hj
    rw [r.fh k hk i hi j hj, r'.fh k hk i hi j hj]
  path := by rw [r.path, r'.path]

/-! ### What the back end reports -/

theorem ret_imm (w : W32) : ((Decode.immI w).setWidth 32 = 0#32) ↔ w.extractLsb' 20 12 = 0#12 := by
  rw [ImmLemmas.immI_eq]
  constructor
  · intro h
    apply BitVec.eq_of_getLsbD_eq
    intro j hj
    have hb := congrArg (fun x => x.getLsbD j) h
    simp only [AluLemmas.getLsbD_ofBits, Isa.immIBit] at hb
    rw [BitVec.getLsbD_extractLsb']
    by_cases hj' : j ≤ 10
    · simp [hj', show j < 32 by omega] at hb
      simp [hj, hb]
    · have : j = 11 := by omega
      subst this
      simp at hb
      simp [hb]
  · intro h
    apply BitVec.eq_of_getLsbD_eq
    intro j hj
    have hb : ∀ k, k < 12 → w.getLsbD (20 + k) = false := by
      intro k hk
      have := congrArg (fun x => x.getLsbD k) h
      simpa [BitVec.getLsbD_extractLsb', hk] using this
    simp only [AluLemmas.getLsbD_ofBits, Isa.immIBit]
    split
    · simp [hb j (by omega)]
    · simpa using fun _ => hb 11 (by omega)

theorem finish_type (u : Decode.DecInst) : (Decode.decodeFinish u).type = u.type := by
  unfold Decode.decodeFinish
  dsimp only
  repeat' split
  all_goals rfl

theorem system_type (w : W32) (u : Decode.DecInst) :
    (Decode.decodeSystem w u).type ≠ .br ∧ (Decode.decodeSystem w u).type ≠ .jal ∧ (Decode.decodeSystem w u).type ≠ .jalr := by
  unfold Decode.decodeSystem
  dsimp only
  repeat' split
  all_goals exact ⟨by simp, by simp, by simp⟩

theorem report_nonctl (u : Decode.DecInst) (h1 : u.type ≠ .br) (h2 : u.type ≠ .jal) (h3 : u.type ≠ .jalr) :
    reportType u = .nonctl := by
  unfold reportType
  simp [h1, h2, h3]

theorem five_one (x : BitVec 5) : x.toNat = 1 ↔ x = 1#5 := by
  rw [← BitVec.toNat_inj]; rfl

theorem five_zero (x : BitVec 5) : x.toNat = 0 ↔ x = 0#5 := by
  rw [← BitVec.toNat_inj]; rfl

theorem finish_jal (u : Decode.DecInst) (h : u.type = .jal) (hd : u.destEn = true) :
    reportType (Decode.decodeFinish u) = if u.destAreg = 1 then .call else .jal := by
  obtain ⟨ty, de, s1, s2, at', p1, p2, da, a1, a2, f3, f7, im, cs, pf, il, ir, dg⟩ := u
  dsimp only at h hd
  subst h hd
  by_cases h1 : da = 1
  · subst h1; simp [reportType, Decode.decodeFinish]
  · by_cases h0 : da = 0
    · subst h0; simp [reportType, Decode.decodeFinish]
    · simp [reportType, Decode.decodeFinish, h0, h1]

theorem finish_jalr (u : Decode.DecInst) (h : u.type = .jalr) :
    reportType (Decode.decodeFinish u) = if u.destAreg = 0 ∧ u.src1Areg = 1 ∧ u.imm = 0#32 then .ret else .idirect := by
  obtain ⟨ty, de, s1, s2, at', p1, p2, da, a1, a2, f3, f7, im, cs, pf, il, ir, dg⟩ := u
  dsimp only at h
  subst h
  by_cases h0 : da = 0
  · subst h0
    by_cases h1 : a1 = 1 <;> by_cases h2 : im = 0#32 <;> simp [reportType, Decode.decodeFinish, h1, h2]
  · simp [reportType, Decode.decodeFinish, h0]

theorem opcode_other (w : W32) (u : Decode.DecInst) (h1 : w.extractLsb' 0 7 ≠ 0b1100011#7)
    (h2 : w.extractLsb' 0 7 ≠ 0b1101111#7) (h3 : w.extractLsb' 0 7 ≠ 0b1100111#7) :
    (Decode.decodeOpcode w u).type ≠ .br ∧ (Decode.decodeOpcode w u).type ≠ .jal ∧ (Decode.decodeOpcode w u).type ≠ .jalr := by
  unfold Decode.decodeOpcode
  split
  case h_3 h => exact absurd h h2
  case h_4 h => exact absurd h h3
  case h_5 h => exact absurd h h1
  case h_11 h => exact system_type w u
  case h_9 h =>
    dsimp only
    repeat' split
    all_goals exact ⟨by simp, by simp, by simp⟩
  case h_10 h =>
    dsimp only
    repeat' split
    all_goals exact ⟨by simp, by simp, by simp⟩
  all_goals exact ⟨by simp, by simp, by simp⟩

theorem reportType_decode (w : W32) : reportType (Decode.decode w) = kindOf w := by
  unfold Decode.decode kindOf
  dsimp only
  by_cases h1 : w.extractLsb' 0 7 = 0b1100011#7
  · rw [if_pos h1]
    have : (Decode.decodeFinish (Decode.decodeOpcode w (Decode.decodeFields w))).type = .br := by
      rw [finish_type]; unfold Decode.decodeOpcode; rw [h1]; rfl
    unfold reportType
    simp [this]
  rw [if_neg h1]
  by_cases h2 : w.extractLsb' 0 7 = 0b1101111#7
  · rw [if_pos h2]
    have e : Decode.decodeOpcode w (Decode.decodeFields w) =
        { Decode.decodeFields w with destEn := true, src1En := false, src2En := false, src1IsPc := true, src2IsImm := true,
                                     func3 := 0#3, type := .jal, imm := (Decode.immJ w).setWidth 32 } := by
      unfold Decode.decodeOpcode; rw [h2]; rfl
    rw [e, finish_jal _ rfl rfl]
    have := five_one (w.extractLsb' 7 5)
    unfold Decode.decodeFields
    dsimp only
    by_cases hr : w.extractLsb' 7 5 = 1#5
    · rw [if_pos hr, if_pos (this.mpr hr)]
    · rw [if_neg hr, if_neg (fun h => hr (this.mp h))]
  rw [if_neg h2]
  by_cases h3 : w.extractLsb' 0 7 = 0b1100111#7
  · rw [if_pos h3]
    have e : Decode.decodeOpcode w (Decode.decodeFields w) =
        { Decode.decodeFields w with destEn := true, src1En := true, src2En := false, src1IsPc := true, src2IsImm := true,
                                     func3 := 0#3, type := .jalr, imm := (Decode.immI w).setWidth 32 } := by
      unfold Decode.decodeOpcode; rw [h3]; rfl
    rw [e, finish_jalr _ rfl]
    unfold Decode.decodeFields
    dsimp only
    have : ((w.extractLsb' 7 5).toNat = 0 ∧ (w.extractLsb' 15 5).toNat = 1 ∧ (Decode.immI w).setWidth 32 = 0#32) ↔
        (w.extractLsb' 7 5 = 0#5 ∧ w.extractLsb' 15 5 = 1#5 ∧ w.extractLsb' 20 12 = 0#12) := by
      rw [five_zero, five_one, ret_imm]
    by_cases hr : w.extractLsb' 7 5 = 0#5 ∧ w.extractLsb' 15 5 = 1#5 ∧ w.extractLsb' 20 12 = 0#12
    · rw [if_pos hr, if_pos (this.mpr hr)]
    · rw [if_neg hr, if_neg (fun h => hr (this.mp h))]
  rw [if_neg h3]
  obtain ⟨a, b, d⟩ := opcode_other w (Decode.decodeFields w) h1 h2 h3
  exact report_nonctl _ (by rw [finish_type]; exact a) (by rw [finish_type]; exact b) (by rw [finish_type]; exact d)

/-! ### Interrupts -/

theorem firstValid_get : ∀ {row : Rob.Row} {k : Nat} {u : Rob.Uop}, Rob.firstValid row = some (k, u) → row[k]? = some (some u) := by
  intro row
  induction row with
  | nil => intro k u h; cases h
  | cons a t ih =>
    intro k u h
    cases a with
    | some v =>
      simp only [Rob.firstValid, Option.some.injEq, Prod.mk.injEq] at h
      obtain ⟨rfl, rfl⟩ := h
      rfl
    | none =>
      simp only [Rob.firstValid, Option.map_eq_some_iff, Prod.mk.injEq] at h
      obtain ⟨⟨k', u'⟩, h1, rfl, rfl⟩ := h
      exact ih h1

theorem retires_interrupt {r : RobIn} {k : Nat} {u : Rob.Uop} (stall : Bool) (h : Rob.firstValid r.row = some (k, u))
    (hm : r.mispred = false) (hi : r.intReq = true) : retires stall r = [u] := by
  have hg := firstValid_get h
  have hany : r.row.any (fun o => o.any (fun u => Rob.isFlush u || Rob.isFence u || Rob.isWfi u) || true) = true := by
    rw [List.any_eq_true]
    exact ⟨some u, List.mem_of_getElem? hg, by simp⟩
  have ha : Rob.arbitrate r.row r.empty false stall true r.storePending = .single k true := by
    unfold Rob.arbitrate
    dsimp only
    rw [h]
    simp only [hany]
    simp
  unfold retires
  rw [hm, hi, ha]
  simp [Rob.commits, hg]

end Verif.Bpu

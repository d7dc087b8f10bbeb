import Verif.Proofs.TageSys
import Verif.Props.Tage
import Verif.Model.HandOff
/-
C126: the predictor as a whole learns a branch that always goes the same way, although predictions are made long before they can be
trained.
-/
namespace Verif.Props
open Verif.Bpu Verif.BpuTab Verif.BpuSys Verif.TageSys Verif.Spec.TageSys
open Verif.Spec.Tage (train)
open Verif.Proofs.TageLate Verif.Proofs.TageSys

/-- The tables of a bank are those trained, one after the other, by the retired conditional branches of the bank; what is missing
waits in its queue. -/
theorem C126_tables {c : Cfg} (ok : c.Ok) {tc : TCfg} {b : BCfg} {tg : Tage.Cfg} {recs : Nat → Tage.Meta} {pc0 : BitVec 32}
    {is : List TIn} {s : TSt} {os : List Out} (h : tRun c tc b tg recs (tInit tg pc0) is = some (s, os)) (bk : Nat) :
    ∃ past, s.dir bk = train tg (Tage.init tg) (past.filterMap (tUpd c recs)) ∧
      past ++ (s.p.top.bank bk).waiting c = ofBank c bk (is.flatMap (fun i => i.upds.filterMap id)) := by
  obtain ⟨⟨ins, h1, h2⟩, h3⟩ := tRun_tables is h
  refine ⟨_, h3 bk, ?_⟩
  rw [((pRun_log ok h1).2 bk).2]
  have : ∀ (ins : List PIn) (is : List TIn), ins.map PIn.upds = is.map TIn.upds →
      retired ins = is.flatMap (fun i => i.upds.filterMap id) := by
    intro ins
    induction ins with
    | nil => intro is h; cases is with | nil => rfl | cons _ _ => cases h
    | cons x ins ih =>
      intro is h
      cases is with
      | nil => cases h
      | cons y is =>
        rw [List.map_cons, List.map_cons, List.cons.injEq] at h
        have := ih is h.2
        unfold retired at this ⊢
        rw [List.flatMap_cons, List.flatMap_cons, h.1, this]
  rw [this ins is h2]

/-- The direction of a slot of a group: a conditional branch goes where its bank's tables say for its own address and the
speculative histories; other control instructions are taken. -/
theorem C126_direction {c : Cfg} (ok : c.Ok) {m : Nat} (hl : c.Lines m) {tc : TCfg} {b : BCfg} {tg : Tage.Cfg}
    {recs : Nat → Tage.Meta} {s s' : TSt} {i : TIn} {o : Out} (h : tCycle c tc b tg recs s i = some (s', o))
    (hn : i.refetch = none) (hr : i.ready = true) {k : Nat} (hk : k < c.fetchWidth) (on : slotOn c s.p.top.pc k = true) :
    o.predDir k = match typePredict c tc s.p.types (slotPc s.p.top.pc k) with
      | .nonctl => false
      | .direct => (Tage.predict tg (s.dir (bankSel c (slotPc s.p.top.pc k)))
          ⟨bankPc c (slotPc s.p.top.pc k), s.p.top.spec.fh, s.p.top.spec.ghr, s.p.top.spec.path⟩).pred
      | _ => true := by
  obtain ⟨h1, -⟩ := tCycle_some h
  obtain ⟨h2, -, -⟩ := pCycle_some h1
  rw [out_dir h2 hn hr k]
  obtain ⟨sl, hsl⟩ := slots_get' (c := c) (base := s.p.top.pc) (going := true) (i := answers c tc b s.p (pIn c tg s i)) hk
  obtain ⟨-, hpc, hon, hty, htk, -⟩ := sys_slot (s := s.p) (i := pIn c tg s i) ok hl hn hsl
  rw [hsl]
  show sl.taken = _
  rw [htk, hon, on, Bool.true_and, hty, hpc]
  have htage : (answers c tc b s.p (pIn c tg s i)).tage (bankSel c (slotPc s.p.top.pc k)) =
      some (Tage.predict tg (s.dir (bankSel c (slotPc s.p.top.pc k)))
        ⟨bankPc c (slotPc s.p.top.pc k), s.p.top.spec.fh, s.p.top.spec.ghr, s.p.top.spec.path⟩).pred := by
    show (asked c s i _).map _ = _
    rw [asked_slot ok hl hn hk on]
    rfl
  unfold predTaken
  rw [htage]
  cases typePredict c tc s.p.types (slotPc s.p.top.pc k) <;> rfl

/-- Which rows a branch reads depends on its address and on the newest outcomes only, as many as the longest table looks at. -/
theorem C126_rows {c : Cfg} (ok : c.Ok) {pc0 : BitVec 32} {L L' : Log} {s s' : St} (h : Reach c pc0 L s) (h' : Reach c pc0 L' s')
    {n : Nat} (hn : ∀ i, i < 4 → c.tnLen i ≤ n) (e : ∀ i, i < n → outcome L.spec i = outcome L'.spec i) (pc : BitVec 32) :
    SameRows ⟨pc, s.spec.fh, s.spec.ghr, s.spec.path⟩ ⟨pc, s'.spec.fh, s'.spec.ghr, s'.spec.path⟩ :=
  ⟨rfl, fun j hj i hi => (fh_same ok (reach_inv ok h).spec (reach_inv ok h').spec hn e j hj i hi).symm⟩

/-- A branch that reads the same rows each time and that went the same way in its last `enough W` trainings is predicted that way,
whatever is asked about it with the same rows; and so are its predictions still in flight.  At most `W` predictions are ever in
flight, and each is trained with what came back of its own record. -/
theorem C126_learns {c : Tage.Cfg} (hc : Verif.Spec.Tage.Cfg.Ok c) (hs : Verif.Spec.Tage.Cfg.Sized c) {k k' : Tage.Key} {W : Nat}
    {s : Tage.St} {fl : List Tage.Meta} {os : List Bool} (h : Watch c k W s fl os) {d : Bool} (hlen : enough W ≤ os.length)
    (hd : ∀ x ∈ os.take (enough W), x = d) (hk : SameRows k k') :
    (Tage.predict c s k').pred = d ∧ ∀ m ∈ fl, m.pred = d := by
  obtain ⟨-, -, h3, h4⟩ := watch hc hs h
  have hj := h4 d
  rw [Nat.sub_eq_zero_of_le (lead_take hlen hd)] at hj
  obtain ⟨h5, h6⟩ := j_zero h3 hj
  exact ⟨Verif.Proofs.Tage.settled_pred hc (same_settled hk (todo_settled h5)), h6⟩

/-- The same for the predictor as a whole: in a fetch group that contains the branch, known to be a conditional branch, the slot's
direction is the one it went `enough W` times. -/
theorem C126_predicts {c : Cfg} (ok : c.Ok) {m : Nat} (hl : c.Lines m) {tc : TCfg} {b : BCfg} {tg : Tage.Cfg}
    (hc : Verif.Spec.Tage.Cfg.Ok tg) (hs : Verif.Spec.Tage.Cfg.Sized tg) {recs : Nat → Tage.Meta} {pc0 : BitVec 32} {bk : Nat}
    {k : Tage.Key} {W : Nat} {s s' : TSt} {fl : List Tage.Meta} {os : List Bool} (h : Tracks c tc b tg recs pc0 bk k W s fl os)
    {d : Bool} (hlen : enough W ≤ os.length) (hd : ∀ x ∈ os.take (enough W), x = d) {i : TIn} {o : Out}
    (hcyc : tCycle c tc b tg recs s i = some (s', o)) (hn : i.refetch = none) (hr : i.ready = true) {j : Nat}
    (hj : j < c.fetchWidth) (on : slotOn c s.p.top.pc j = true) (hb : bankSel c (slotPc s.p.top.pc j) = bk)
    (hty : typePredict c tc s.p.types (slotPc s.p.top.pc j) = .direct)
    (hk : SameRows k ⟨bankPc c (slotPc s.p.top.pc j), s.p.top.spec.fh, s.p.top.spec.ghr, s.p.top.spec.path⟩) :
    o.predDir j = d := by
  rw [C126_direction ok hl hcyc hn hr hj on, hty, hb]
  exact (C126_learns hc hs (tracks_watch h) hlen hd hk).1

namespace TageLateRun
open Verif.HandOff (carried)

/-- What the hand-over leaves of a record (C112) is enough. -/
theorem agrees_carried (m : Tage.Meta) : Agrees m (carried m) := ⟨rfl, rfl, fun _ _ => rfl, fun _ _ => rfl⟩

/-- A branch taken again and again, with three predictions in flight before the oldest is trained. -/
theorem three (n : Nat) : ∃ s fl, fl.length = 2 ∧ Watch Tage.cfg0 tageKey 3 s fl (List.replicate n true) := by
  have hk : SameRows tageKey tageKey := ⟨rfl, fun _ _ _ _ => rfl⟩
  induction n with
  | zero =>
    have h0 : Watch Tage.cfg0 tageKey 3 (Tage.init Tage.cfg0) [] [] := Watch.start []
    have h1 := Watch.ask h0 hk (by decide)
    have h2 := Watch.ask h1 hk (by decide)
    exact ⟨_, _, rfl, h2⟩
  | succ n ih =>
    obtain ⟨s, fl, hl, h⟩ := ih
    match fl, hl, h with
    | [a, b], _, h =>
      have h1 := Watch.ask h hk (Nat.lt_succ_self 2)
      exact ⟨_, _, rfl, Watch.own true h1 (agrees_carried a)⟩

/-- After reset it is predicted not taken; after 55 executions it is predicted taken. -/
example : (Tage.predict Tage.cfg0 (Tage.init Tage.cfg0) tageKey).pred = false ∧
    ∃ s fl, Watch Tage.cfg0 tageKey 3 s fl (List.replicate 55 true) ∧ (Tage.predict Tage.cfg0 s tageKey).pred = true := by
  refine ⟨by decide +kernel, ?_⟩
  obtain ⟨s, fl, -, h⟩ := three 55
  exact ⟨s, fl, h, (C126_learns tage_cfg0_ok tage_cfg0_sized h (d := true) (by decide) (by decide) ⟨rfl, fun _ _ _ _ => rfl⟩).1⟩

/-! A run of the whole predictor, in a small configuration: the fetch is sent to one branch in every cycle, the branch is taken and
retires a cycle after each prediction, and trains a cycle later. -/

/-- One bank, a history of one branch. -/
def small : Cfg := ⟨1, 1, 1, 1, 2, 1, 64, 1, fun _ => 1, fun _ _ => 1⟩

theorem small_ok : small.Ok := ⟨by decide, by decide, by decide, by decide, by decide, by decide, by decide, by decide, by decide⟩

theorem small_lines : small.Lines 6 := ⟨by decide, by decide, by decide⟩

def lpc : W32 := 0x80000010#32

/-- The question about the branch once a taken branch is in the history. -/
def lkey : Tage.Key := ⟨bankPc small lpc, fun _ _ => 1#32, fun _ => true, 0#32⟩

/-- Record number `n`: provider `n`, the rows and tags of the branch.  Number 9: the first time, with an empty history. -/
def recs (n : Nat) : Tage.Meta :=
  if n = 9 then carried (Tage.predict Tage.cfg0 (Tage.init Tage.cfg0) { lkey with fh := fun _ _ => 0#32, ghr := fun _ => false })
  else carried { Tage.predict Tage.cfg0 (Tage.init Tage.cfg0) lkey with pcpn := n }

/-- The branch retires, predicted `p` by table `n`. -/
def ret (p : Bool × Nat) : Upd := ⟨lpc, true, .direct, lpc, p.1, p.2⟩

def lap (p : Bool × Nat) : TIn := ⟨some lpc, true, [some (ret p)]⟩

/-- Decidable `SameRows` and `Agrees`. -/
def sameB (k k' : Tage.Key) : Bool :=
  k'.pc == k.pc && (List.range 3).all (fun j => (List.range 4).all (fun i => k'.fh j i == k.fh j i))

theorem sameB_sound {k k' : Tage.Key} (h : sameB k k' = true) : SameRows k k' := by
  unfold sameB at h
  simp only [Bool.and_eq_true, beq_iff_eq, List.all_eq_true, List.mem_range] at h
  exact h

def agreesB (m r : Tage.Meta) : Bool :=
  r.pred == m.pred && r.pcpn == m.pcpn && (List.range 4).all (fun i => r.idx i == m.idx i && r.tag i == m.tag i)

theorem agreesB_sound {m r : Tage.Meta} (h : agreesB m r = true) : Agrees m r := by
  unfold agreesB at h
  simp only [Bool.and_eq_true, beq_iff_eq, List.all_eq_true, List.mem_range] at h
  exact ⟨h.1.1, h.1.2, fun i hi => (h.2 i hi).1, fun i hi => (h.2 i hi).2⟩

/-- One cycle: the branch is predicted; the training, if any, is that of its oldest prediction. -/
def one (s : TSt) (fl : List Tage.Meta) (os : List Bool) (i : TIn) : Option (TSt × List Tage.Meta × List Bool) :=
  match tCycle small tcfg0 bcfg0 Tage.cfg0 recs s i, asked small s i 0 with
  | some (s', o), some k' =>
    if sameB lkey k' && decide (fl.length < 3) then
      match trainedBy small recs o 0, fl ++ [Tage.predict Tage.cfg0 (s.dir 0) k'] with
      | none, fl1 => some (s', fl1, os)
      | some u, m :: r => if u.pc == lkey.pc && agreesB m u.m then some (s', r, u.dir :: os) else none
      | _, _ => none
    else none
  | _, _ => none

theorem one_sound {s s' : TSt} {fl fl' : List Tage.Meta} {os os' : List Bool} {i : TIn}
    (ht : Tracks small tcfg0 bcfg0 Tage.cfg0 recs lpc 0 lkey 3 s fl os) (h : one s fl os i = some (s', fl', os')) :
    Tracks small tcfg0 bcfg0 Tage.cfg0 recs lpc 0 lkey 3 s' fl' os' := by
  unfold one at h
  split at h
  · rename_i t o k' hc ha
    split at h
    · rename_i hb
      rw [Bool.and_eq_true, decide_eq_true_eq] at hb
      have hask : (fl ++ [Tage.predict Tage.cfg0 (s.dir 0) k'] = fl ∨ ∃ k1, asked small s i 0 = some k1 ∧ SameRows lkey k1 ∧
          fl.length < 3 ∧ fl ++ [Tage.predict Tage.cfg0 (s.dir 0) k'] = fl ++ [Tage.predict Tage.cfg0 (s.dir 0) k1]) :=
        .inr ⟨k', ha, sameB_sound hb.1, hb.2, rfl⟩
      split at h
      · rename_i hn
        simp only [Option.some.injEq, Prod.mk.injEq] at h
        obtain ⟨rfl, rfl, rfl⟩ := h
        exact Tracks.cycle ht hc hask (.inl ⟨_, (List.take_length).symm, rfl, fun u hu => by rw [hn] at hu; cases hu⟩)
      · rename_i u m r hu hm
        split at h
        · rename_i hx
          rw [Bool.and_eq_true, beq_iff_eq] at hx
          simp only [Option.some.injEq, Prod.mk.injEq] at h
          obtain ⟨rfl, rfl, rfl⟩ := h
          refine Tracks.cycle ht hc hask (.inr ⟨(fl ++ [Tage.predict Tage.cfg0 (s.dir 0) k']).length, m, u.m, u.dir, ?_, agreesB_sound hx.2, ?_, rfl⟩)
          · rw [List.take_length, hm]
          · rw [hu, ← hx.1]
        · cases h
      · cases h
    · cases h
  · cases h

def many : List TIn → TSt × List Tage.Meta × List Bool → Option (TSt × List Tage.Meta × List Bool)
  | [], p => some p
  | i :: r, (s, fl, os) => (one s fl os i).bind (many r)

theorem many_sound : ∀ (is : List TIn) {s s' : TSt} {fl fl' : List Tage.Meta} {os os' : List Bool},
    Tracks small tcfg0 bcfg0 Tage.cfg0 recs lpc 0 lkey 3 s fl os → many is (s, fl, os) = some (s', fl', os') →
    Tracks small tcfg0 bcfg0 Tage.cfg0 recs lpc 0 lkey 3 s' fl' os' := by
  intro is
  induction is with
  | nil =>
    intro s s' fl fl' os os' ht h
    simp only [many, Option.some.injEq, Prod.mk.injEq] at h
    obtain ⟨rfl, rfl, rfl⟩ := h
    exact ht
  | cons i r ih =>
    intro s s' fl fl' os os' ht h
    obtain ⟨⟨s1, fl1, os1⟩, h1, h2⟩ := Option.bind_eq_some_iff.mp h
    exact ih (one_sound ht h1) h2

/-- The fetch is sent to the branch, nothing retires. -/
def look : TIn := ⟨some lpc, true, []⟩

/-- The predictor sees the branch once, so that it knows its type and the history is in place. -/
def warm : List TIn := [lap (false, 9), look]

/-- The answers that come back: three times the base table, wrong; from then on table 1. -/
def laps : List TIn := [look, lap (false, 4), lap (false, 4), lap (false, 4)] ++ List.replicate 4 (lap (true, 1))

/-- The type predictor holds the branch as a conditional branch. -/
def typeKnown (T : TTable) : Bool :=
  match hitWay tcfg0.ways (T (typeKey small tcfg0 lpc).1) (typeKey small tcfg0 lpc).2 with
  | none => false
  | some w => (T (typeKey small tcfg0 lpc).1 w).pay.1 == .direct

theorem typeKnown_predict {T : TTable} (h : typeKnown T = true) : typePredict small tcfg0 T lpc = .direct := by
  unfold typeKnown at h
  unfold typePredict
  dsimp only
  split at h
  · cases h
  · rename_i w hw
    rw [hw]
    exact beq_iff_eq.mp h

/-- Bank 0 holds one retired branch, the last answer of which was right. -/
structure Steady (s : TSt) (fl : List Tage.Meta) : Prop where
  types : typeKnown s.p.types = true
  spec : ∀ j, j < 3 → ∀ i, i < 4 → s.p.top.spec.fh j i = 1#32
  arch : ∀ j, j < 3 → ∀ i, i < 4 → s.p.top.arch.fh j i = 1#32
  bit : s.p.top.arch.ghr 0 = true
  bank : (s.p.top.bank 0).count = 1 ∧ (s.p.top.bank 0).rd < 2 ∧ (s.p.top.bank 0).wr = ((s.p.top.bank 0).rd + 1) % 2 ∧
    (s.p.top.bank 0).slot (s.p.top.bank 0).rd = ret (true, 1)
  prov : Verif.Proofs.Tage.prov Tage.cfg0 (s.dir 0) lkey = 1
  settled : todo Tage.cfg0 (s.dir 0) lkey true = 0
  len : fl.length = 2
  right : ∀ m ∈ fl, m.pred = true ∧ m.pcpn = 1

theorem lap_cycle (s : TSt) (hb : (s.p.top.bank 0).count = 1) :
    ∃ s' o, tCycle small tcfg0 bcfg0 Tage.cfg0 recs s (lap (true, 1)) = some (s', o) ∧
      s'.p.top.arch = s.p.top.arch.push small lpc true ∧ s'.p.top.spec = s'.p.top.arch ∧
      s'.p.top.bank 0 = ((s.p.top.bank 0).pop small).push small (ret (true, 1)) ∧
      o.train 0 = some ((s.p.top.bank 0).slot (s.p.top.bank 0).rd) ∧ s'.p.top.pc = lpc ∧
      s'.p.types = typeCycle small tcfg0 s.p.types [(lpc, .direct)] := by
  have hk : bankSel small (ret (true, 1)).pc = 0 := by decide +kernel
  have hpop : ((s.p.top.bank 0).pop small).count = 0 := by unfold QBank.pop; rw [if_pos (by omega)]; show _ - 1 = 0; omega
  have hpush : pushAll small [some (ret (true, 1))] (fun b => (s.p.top.bank b).pop small) =
      some (fun j => if j = 0 then ((s.p.top.bank 0).pop small).push small (ret (true, 1)) else (s.p.top.bank j).pop small) := by
    unfold pushAll
    dsimp only
    rw [hk, if_pos (by rw [hpop]; decide)]
    rfl
  unfold tCycle pCycle Bpu.cycle
  dsimp only [answers, pIn, lap]
  rw [hpush]
  refine ⟨_, _, rfl, rfl, rfl, rfl, ?_, rfl, rfl⟩
  show (if (s.p.top.bank 0).count ≠ 0 then _ else _) = _
  rw [if_pos (by omega)]

theorem typeKnown_cycle {T : TTable} (h : typeKnown T = true) : typeKnown (typeCycle small tcfg0 T [(lpc, .direct)]) = true := by
  unfold typeKnown at h
  split at h
  · cases h
  · rename_i w hw
    have hp : (T (typeKey small tcfg0 lpc).1 w).pay.1 = .direct := beq_iff_eq.mp h
    have hu : ∃ e : TEntry, typeUpdate tcfg0 (T (typeKey small tcfg0 lpc).1) (typeKey small tcfg0 lpc).2 .direct = some (w, e) ∧
        e.valid = true ∧ e.tag = (typeKey small tcfg0 lpc).2 ∧ e.pay.1 = .direct := by
      unfold typeUpdate
      dsimp only
      rw [hw, if_neg (by decide)]
      simp only [Option.getD_some, Option.isSome_some, if_true, hp, Bool.true_and, beq_self_eq_true]
      exact ⟨_, rfl, rfl, rfl, rfl⟩
    obtain ⟨e, h1, h2, h3, h4⟩ := hu
    have hT : typeCycle small tcfg0 T [(lpc, .direct)] (typeKey small tcfg0 lpc).1 = put (T (typeKey small tcfg0 lpc).1) w e := by
      unfold typeCycle
      simp only [List.foldl_cons, List.foldl_nil, h1, if_true]
    have hh : hitWay tcfg0.ways (put (T (typeKey small tcfg0 lpc).1) w e) (typeKey small tcfg0 lpc).2 = some w := by
      rw [← hw]
      unfold hitWay
      have := List.find?_some hw
      congr 1
      funext v
      unfold put
      by_cases hv : v = w
      · rw [if_pos hv, h2, h3, hv, this]; simp
      · rw [if_neg hv]
    unfold typeKnown
    rw [hT, hh]
    simp [put, h4]

theorem fh_push {h : GHist} {j i : Nat} (hb : h.ghr 0 = true) (h1 : h.fh j i = 1#32) : (h.push small lpc true).fh j i = 1#32 := by
  show fhUpd small h.fh h.ghr true j i = 1#32
  unfold fhUpd
  simp only [h1]
  show _ ^^^ (Bpu.bit (h.ghr 0) <<< (1 % 1)) = 1#32
  rw [hb, show small.fhLen j i = 1 from rfl]
  decide

theorem asked_lap (s : TSt) : asked small s (lap (true, 1)) 0 =
    some ⟨bankPc small lpc, s.p.top.spec.fh, s.p.top.spec.ghr, s.p.top.spec.path⟩ := by
  have : (List.range small.fetchWidth).find? (fun k => slotOn small lpc k && bankSel small (slotPc lpc k) == 0) = some 0 := by
    decide +kernel
  unfold asked
  dsimp only [lap, Option.getD_some]
  rw [this]
  have : bankPc small (slotPc lpc 0) = bankPc small lpc := by decide +kernel
  simp only [Option.map_some, this]

theorem steady_step {s : TSt} {fl : List Tage.Meta} {os : List Bool}
    (ht : Tracks small tcfg0 bcfg0 Tage.cfg0 recs lpc 0 lkey 3 s fl os) (h : Steady s fl) :
    ∃ s' fl', Tracks small tcfg0 bcfg0 Tage.cfg0 recs lpc 0 lkey 3 s' fl' (true :: os) ∧ Steady s' fl' ∧ s'.p.top.pc = lpc := by
  obtain ⟨m1, m2, rfl⟩ : ∃ m1 m2, fl = [m1, m2] := by
    match fl, h.len with
    | [a, b], _ => exact ⟨a, b, rfl⟩
  obtain ⟨b1, b2, b3, b4⟩ := h.bank
  obtain ⟨s', o, hc, ha, hsp, hbk, htr, hpc, hty⟩ := lap_cycle s b1
  obtain ⟨hr, hrec, -, -⟩ := watch tage_cfg0_ok tage_cfg0_sized (tracks_watch ht)
  have hk' : SameRows lkey ⟨bankPc small lpc, s.p.top.spec.fh, s.p.top.spec.ghr, s.p.top.spec.path⟩ :=
    ⟨rfl, fun j hj i hi => h.spec j hj i hi⟩
  have ht1 : trainedBy small recs o 0 = some ⟨lkey.pc, true, { recs 1 with pred := true }⟩ := by
    unfold trainedBy
    rw [htr, b4]
    rfl
  have hrr : Rec Tage.cfg0 lkey { recs 1 with pred := true } :=
    have := rec_predict (c := Tage.cfg0) (s := Tage.init Tage.cfg0) (k := lkey) (k' := lkey) ⟨rfl, fun _ _ _ _ => rfl⟩
    ⟨this.idx, this.tag⟩
  have hm1 := hrec m1 (by simp)
  have hag : Agrees m1 { recs 1 with pred := true } :=
    ⟨(h.right m1 (by simp)).1.symm, (h.right m1 (by simp)).2.symm, fun i hi => by rw [hm1.idx i hi, hrr.idx i hi],
      fun i hi => by rw [hm1.tag i hi, hrr.tag i hi]⟩
  have hdir : s'.dir 0 = Tage.update Tage.cfg0 (s.dir 0) ⟨lkey.pc, true, { recs 1 with pred := true }⟩ := by
    rw [(tCycle_some hc).2 0, ht1]
  obtain ⟨p1, p2⟩ := late_noalloc (d := true) hr hrr (by rw [h.prov]; rfl) (by
    unfold Tage.allocTab
    rw [if_neg]
    simp [Tage.mayAlloc])
  have hnew : (Tage.predict Tage.cfg0 (s.dir 0) ⟨bankPc small lpc, s.p.top.spec.fh, s.p.top.spec.ghr, s.p.top.spec.path⟩).pred = true ∧
      (Tage.predict Tage.cfg0 (s.dir 0) ⟨bankPc small lpc, s.p.top.spec.fh, s.p.top.spec.ghr, s.p.top.spec.path⟩).pcpn = 1 :=
    ⟨Verif.Proofs.Tage.settled_pred tage_cfg0_ok (same_settled hk' (todo_settled h.settled)), by
      rw [Verif.Proofs.Tage.pcpn_eq, same_prov hk', h.prov]⟩
  refine ⟨s', [m2, _], Tracks.cycle ht hc (.inr ⟨_, asked_lap s, hk', by simp, rfl⟩)
    (.inr ⟨3, m1, _, true, rfl, hag, ht1, rfl⟩), ?_, hpc⟩
  have harch : ∀ j, j < 3 → ∀ i, i < 4 → s'.p.top.arch.fh j i = 1#32 := fun j hj i hi => by
    rw [ha]; exact fh_push h.bit (h.arch j hj i hi)
  refine ⟨by rw [hty]; exact typeKnown_cycle h.types, fun j hj i hi => by rw [hsp]; exact harch j hj i hi, harch, by rw [ha]; rfl, ?_,
    by rw [hdir, p1, h.prov], by rw [hdir, p2, h.settled], rfl, ?_⟩
  · rw [hbk]
    have e : (s.p.top.bank 0).pop small =
        { s.p.top.bank 0 with rd := ((s.p.top.bank 0).rd + 1) % 2, count := (s.p.top.bank 0).count - 1 } := by
      unfold QBank.pop; rw [if_pos (by omega)]; rfl
    rw [e]
    unfold QBank.push
    dsimp only
    refine ⟨by omega, Nat.mod_lt _ (by decide), ?_, ?_⟩
    · show ((s.p.top.bank 0).wr + 1) % 2 = _
      rw [b3]
    · rw [b3, if_pos rfl]
  · intro m hm
    rcases List.mem_cons.mp hm with rfl | hm
    · exact h.right m (by simp)
    · rw [List.mem_singleton] at hm
      subst hm
      exact hnew

/-- Decidable `Steady`. -/
def steadyB (s : TSt) (fl : List Tage.Meta) : Bool :=
  let q := s.p.top.bank 0
  typeKnown s.p.types && (List.range 3).all (fun j => (List.range 4).all (fun i => s.p.top.spec.fh j i == 1#32)) &&
  (List.range 3).all (fun j => (List.range 4).all (fun i => s.p.top.arch.fh j i == 1#32)) && s.p.top.arch.ghr 0 &&
  decide (q.count = 1 ∧ q.rd < 2 ∧ q.wr = (q.rd + 1) % 2 ∧ q.slot q.rd = ret (true, 1)) &&
  decide (Verif.Proofs.Tage.prov Tage.cfg0 (s.dir 0) lkey = 1) && decide (todo Tage.cfg0 (s.dir 0) lkey true = 0) &&
  decide (fl.length = 2) && fl.all (fun m => m.pred && decide (m.pcpn = 1))

theorem steadyB_sound {s : TSt} {fl : List Tage.Meta} (h : steadyB s fl = true) : Steady s fl := by
  unfold steadyB at h
  simp only [Bool.and_eq_true, List.all_eq_true, List.mem_range, beq_iff_eq, decide_eq_true_eq] at h
  obtain ⟨⟨⟨⟨⟨⟨⟨⟨h1, h2⟩, h3⟩, h4⟩, h5⟩, h6⟩, h7⟩, h8⟩, h9⟩ := h
  exact ⟨h1, h2, h3, h4, h5, h6, h7, h8, h9⟩

/-- The branch has been executed a few times: the run from reset. -/
def early : Option (TSt × List Tage.Meta × List Bool) :=
  (tRun small tcfg0 bcfg0 Tage.cfg0 recs (TageSys.tInit Tage.cfg0 lpc) warm).bind (fun p => many laps (p.1, [], []))

theorem early_steady : (early.map (fun p => steadyB p.1 p.2.1 && p.2.2 == List.replicate 6 true)) = some true := by decide +kernel

theorem long (n : Nat) : ∃ s fl, Tracks small tcfg0 bcfg0 Tage.cfg0 recs lpc 0 lkey 3 s fl (List.replicate (n + 7) true) ∧
    Steady s fl ∧ s.p.top.pc = lpc := by
  induction n with
  | zero =>
    have h := early_steady
    rw [Option.map_eq_some_iff] at h
    obtain ⟨⟨s, fl, os⟩, h1, h2⟩ := h
    rw [Bool.and_eq_true, beq_iff_eq] at h2
    obtain ⟨⟨s0, o0⟩, e1, e2⟩ := Option.bind_eq_some_iff.mp h1
    have ht := many_sound laps (Tracks.start e1) e2
    have e3 : os = List.replicate 6 true := h2.2
    rw [e3] at ht
    exact steady_step ht (steadyB_sound h2.1)
  | succ n ih =>
    obtain ⟨s, fl, ht, hs, -⟩ := ih
    exact steady_step ht hs

/-- The first time the branch is fetched it is predicted not taken; after 55 executions, each trained two cycles after its prediction,
it is predicted taken. -/
example : (∃ s os s' o, tRun small tcfg0 bcfg0 Tage.cfg0 recs (TageSys.tInit Tage.cfg0 lpc) warm = some (s, os) ∧
      tCycle small tcfg0 bcfg0 Tage.cfg0 recs s ⟨none, true, []⟩ = some (s', o) ∧ o.predDir 0 = false) ∧
    ∃ s fl s' o, Tracks small tcfg0 bcfg0 Tage.cfg0 recs lpc 0 lkey 3 s fl (List.replicate 55 true) ∧
      tCycle small tcfg0 bcfg0 Tage.cfg0 recs s ⟨none, true, []⟩ = some (s', o) ∧ o.predDir 0 = true := by
  constructor
  · have h : ((tRun small tcfg0 bcfg0 Tage.cfg0 recs (TageSys.tInit Tage.cfg0 lpc) warm).bind (fun p =>
        (tCycle small tcfg0 bcfg0 Tage.cfg0 recs p.1 ⟨none, true, []⟩).map (fun q => q.2.predDir 0))) = some false := by decide +kernel
    obtain ⟨⟨s, os⟩, h1, h2⟩ := Option.bind_eq_some_iff.mp h
    obtain ⟨⟨s', o⟩, h3, h4⟩ := Option.map_eq_some_iff.mp h2
    exact ⟨s, os, s', o, h1, h3, h4⟩
  · obtain ⟨s, fl, ht, hs, hpc⟩ := long 48
    have hc : ∃ s' o, tCycle small tcfg0 bcfg0 Tage.cfg0 recs s ⟨none, true, []⟩ = some (s', o) := ⟨_, _, rfl⟩
    obtain ⟨s', o, hc⟩ := hc
    have e : slotPc s.p.top.pc 0 = lpc := by rw [hpc]; decide +kernel
    refine ⟨s, fl, s', o, ht, hc, C126_predicts small_ok small_lines tage_cfg0_ok tage_cfg0_sized ht (d := true) (by decide) (by decide)
      hc rfl rfl (j := 0) (by decide) (by rw [hpc]; decide +kernel) (by rw [e]; decide +kernel) ?_ ?_⟩
    · rw [e]; exact typeKnown_predict hs.types
    · rw [e]; exact ⟨rfl, fun j hj i hi => hs.spec j hj i hi⟩

/-- The queue between retirement and the tables: after this run the bank has been trained with the first execution, and the last one
still waits. -/
example : ∃ s os, tRun small tcfg0 bcfg0 Tage.cfg0 recs (TageSys.tInit Tage.cfg0 lpc) [lap (false, 9), lap (false, 4)] = some (s, os) ∧
    (s.p.top.bank 0).waiting small = [ret (false, 4)] := by
  have h : ((tRun small tcfg0 bcfg0 Tage.cfg0 recs (TageSys.tInit Tage.cfg0 lpc) [lap (false, 9), lap (false, 4)]).map
      (fun p => (p.1.p.top.bank 0).waiting small)) = some [ret (false, 4)] := by decide +kernel
  obtain ⟨⟨s, os⟩, h1, h2⟩ := Option.map_eq_some_iff.mp h
  exact ⟨s, os, h1, h2⟩

/-- Two histories that agree in the newest outcome and differ before it lead to the same rows. -/
example : SameRows ⟨lpc, ((GHist.push small (Bpu.init lpc).spec lpc false).push small lpc true).fh, fun _ => false, 0#32⟩
    ⟨lpc, ((GHist.push small (Bpu.init lpc).spec lpc true).push small lpc true).fh, fun _ => false, 0#32⟩ :=
  sameB_sound (by decide +kernel)

end TageLateRun

end Verif.Props

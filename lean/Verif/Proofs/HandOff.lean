import Verif.Proofs.HandOffPath
import Verif.Props.PreIdu
/-
The hand-over loses and doubles nothing.
-/
namespace Verif.HandOff
open Verif.Front Verif.Fetch
open Verif.FetchStream (Ev want answers)
open Verif.ICache (World)
open Verif.FetchWindow (Flight)

variable {W : Nat}

/-! ### A group and what is cut off -/

/-- Nothing is valid behind a valid lane that is predicted taken. -/
def Cut (o : Out W Nat) : Prop := ∀ i j : Fin W, i < j → o.valid i = true → o.dir i = true → o.valid j = false

theorem cut_cut (o : Out W Nat) : Cut (cut o) := by
  intro i j hij hv hd
  have hv' : o.valid i = true := by
    simp only [cut, cutValid, Bool.and_eq_true] at hv; exact hv.1
  cases hc : (cut o).valid j with
  | false => rfl
  | true =>
    simp only [cut, cutValid, Bool.and_eq_true, List.all_eq_true] at hc
    have := hc.2 i (List.mem_finRange i)
    simp [hij, hv', show o.dir i = true from hd] at this

def insnAt (o : Out W Nat) (j : Fin W) : Insn := ⟨o.pc j, o.insts j, o.pf j, o.dir j, o.next⟩

/-- All valid lanes. -/
def lanes (o : Out W Nat) (l : List (Fin W)) : List Insn := (l.filter (fun j => o.valid j)).map (insnAt o)

theorem lanes_none {o : Out W Nat} {l : List (Fin W)} (h : ∀ j ∈ l, o.valid j = false) : lanes o l = [] := by
  unfold lanes
  rw [List.filter_eq_nil_iff.mpr (fun j hj => by rw [h j hj]; simp)]
  rfl

theorem upTo_lanes {o : Out W Nat} (hc : Cut o) {l : List (Fin W)} (hs : l.Pairwise (· < ·)) : upTo o l = lanes o l := by
  induction l with
  | nil => rfl
  | cons j r ih =>
    rw [List.pairwise_cons] at hs
    unfold upTo
    by_cases hv : o.valid j = true
    · rw [if_pos hv]
      have : lanes o (j :: r) = insnAt o j :: lanes o r := by simp [lanes, hv]
      rw [this]
      congr 1
      by_cases hd : o.dir j = true
      · rw [if_pos hd, lanes_none fun i hi => hc j i (hs.1 i hi) hv hd]
      · rw [if_neg hd, ih hs.2]
    · rw [if_neg hv]
      have : lanes o (j :: r) = lanes o r := by simp [lanes, hv]
      rw [this, ih hs.2]

/-- Cutting does not change the instructions. -/
theorem upTo_cut (o : Out W Nat) : ∀ (k n : Nat), k + n = W → (∀ j : Fin W, j.val < n → ¬ (o.valid j = true ∧ o.dir j = true)) →
    upTo (cut o) ((List.finRange W).drop n) = upTo o ((List.finRange W).drop n) := by
  intro k
  induction k with
  | zero => intro n hn _; rw [List.drop_eq_nil_of_le (by simp; omega)]; rfl
  | succ k ih =>
    intro n hn h
    have hlt : n < W := by omega
    rw [finRange_drop hlt]
    have hv : (cut o).valid ⟨n, hlt⟩ = o.valid ⟨n, hlt⟩ := by
      simp only [cut, cutValid]
      have : ((List.finRange W).all fun i => !(decide (i < (⟨n, hlt⟩ : Fin W)) && o.valid i && o.dir i)) = true := by
        rw [List.all_eq_true]
        intro i _
        by_cases hi : i < (⟨n, hlt⟩ : Fin W)
        · have := h i hi
          cases h1 : o.valid i <;> cases h2 : o.dir i <;> simp_all
        · simp [hi]
      rw [this, Bool.and_true]
    rw [upTo, upTo, hv]
    by_cases hvn : o.valid ⟨n, hlt⟩ = true
    · rw [if_pos hvn, if_pos hvn]
      by_cases hd : o.dir ⟨n, hlt⟩ = true
      · have hd' : (cut o).dir ⟨n, hlt⟩ = true := hd
        rw [if_pos hd, if_pos hd']; rfl
      · have hd' : ¬ (cut o).dir ⟨n, hlt⟩ = true := hd
        rw [if_neg hd, if_neg hd', ih (n + 1) (by omega)]
        · rfl
        · intro j hj
          rcases Nat.lt_or_ge j.val n with h' | h'
          · exact h j h'
          · have : j = ⟨n, hlt⟩ := Fin.ext (by simp only; omega)
            rw [this]; exact fun hh => hd hh.2
    · rw [if_neg hvn, if_neg hvn, ih (n + 1) (by omega)]
      intro j hj
      rcases Nat.lt_or_ge j.val n with h' | h'
      · exact h j h'
      · have : j = ⟨n, hlt⟩ := Fin.ext (by simp only; omega)
        rw [this]; exact fun hh => hvn hh.1

theorem insnsOf_cut (o : Out W Nat) : insnsOf (cut o) = insnsOf o := by
  have := upTo_cut o W 0 (by omega) (by intro j hj; omega)
  simpa [insnsOf] using this

theorem insnsOf_lanes {o : Out W Nat} (hc : Cut o) : insnsOf o = lanes o (List.finRange W) :=
  upTo_lanes hc (List.pairwise_lt_finRange W)

/-! ### As the queues take it over -/

theorem entries_lanes (o : Out W Nat) (idx : Nat) : ∀ (k n : Nat), k + n = W →
    (PreIdu.entries idx (block (some o)) n (((List.finRange W).drop n).map fun j => if o.valid j then some (o.insts j, o.pf j) else none)).map
      (fun e => Insn.of ⟨e, block (some o), e.isLast⟩) = lanes o ((List.finRange W).drop n) := by
  intro k
  induction k with
  | zero => intro n hn; rw [List.drop_eq_nil_of_le (by simp; omega)]; rfl
  | succ k ih =>
    intro n hn
    have hlt : n < W := by omega
    rw [finRange_drop hlt, List.map_cons]
    by_cases hv : o.valid ⟨n, hlt⟩ = true
    · rw [if_pos hv, PreIdu.entries, List.map_cons, ih (n + 1) (by omega)]
      have : lanes o (⟨n, hlt⟩ :: (List.finRange W).drop (n + 1)) = insnAt o ⟨n, hlt⟩ :: lanes o ((List.finRange W).drop (n + 1)) := by
        simp [lanes, hv]
      rw [this]
      congr 1
      simp [Insn.of, insnAt, block, hlt]
    · rw [if_neg hv, PreIdu.entries, ih (n + 1) (by omega)]
      simp [lanes, hv]

/-- The instructions in `back.in`. -/
def insns (b : Slots W Nat) : List Insn := (b.map insnsOf).getD []

theorem fetched_insns {b : Slots W Nat} (hc : ∀ o, b = some o → Cut o) (idx : Nat) :
    (FetchWindow.fetched idx (block b) (group b)).map Insn.of = insns b := by
  unfold FetchWindow.fetched
  rw [List.map_map]
  cases b with
  | none =>
    have : ∀ (n k : Nat), PreIdu.entries idx (block (none : Slots W Nat)) k (List.replicate n none) = [] := by
      intro n
      induction n with
      | zero => intro k; rfl
      | succ n ih => intro k; rw [List.replicate_succ, PreIdu.entries, ih]
    simp [group, insns, this]
  | some o =>
    have := entries_lanes o idx W 0 (by omega)
    simp only [List.drop_zero] at this
    simp only [insns, Option.map_some, Option.getD_some, insnsOf_lanes (hc o rfl), ← this, group]
    rfl

/-- A group without a valid slot has no instructions. -/
theorem insns_nil {b : Slots W Nat} (hc : ∀ o, b = some o → Cut o) (h : (group b).any Option.isSome = false) : insns b = [] := by
  cases b with
  | none => rfl
  | some o =>
    simp only [insns, Option.map_some, Option.getD_some, insnsOf_lanes (hc o rfl)]
    apply lanes_none
    intro j hj
    rw [List.any_eq_false] at h
    cases hv : o.valid j with
    | false => rfl
    | true =>
      have := h (some (o.insts j, o.pf j)) (by simp only [group, List.mem_map]; exact ⟨j, hj, by simp [hv]⟩)
      simp at this

/-! ### The front end gives nothing it is not asked for -/

theorem out_asked {k : Cfg} {s s' : Both W Nat} {i : In W Nat} {resp : Option (Resp W)} {o : Obs W Nat}
    (h : s.cycle k i = some (s', resp, o)) (hr : i.readEn = false) : o.out = none := by
  unfold Both.cycle at h
  simp only [bind, Option.bind_eq_some_iff, pure, Option.some.injEq, Prod.mk.injEq] at h
  obtain ⟨m, h1, ⟨f', o'⟩, h2, _, _, rfl⟩ := h
  have hro : (i.front s).readEn = false := hr
  have hm : m.f2bOut = none := by
    unfold front1 at h1
    simp only [bind, Option.bind_eq_some_iff, pure] at h1
    obtain ⟨a, _, b, _, c, _, d, hd, h1⟩ := h1
    rw [hro] at hd
    have := Props.qRead_none hd
    split at h1
    · obtain ⟨e, _, h1⟩ := Option.bind_eq_some_iff.mp h1
      cases h1
      exact this
    · cases h1
      exact this
  have hchk : ∀ src po y, check k s.f (i.front s) m src po = some y → y.2.2.1 = none := by
    intro src po y hy
    unfold check at hy
    split at hy
    · rename_i gr p
      split at hy
      · simp only [hro, Bool.false_and, Bool.not_false, Bool.and_true] at hy
        split at hy
        · simp only [bind, Option.bind_eq_some_iff, pure] at hy
          obtain ⟨_, _, hy⟩ := hy
          cases hy; rfl
        · cases hy; rfl
      · cases hy
    · cases hy
  unfold front2 at h2
  simp only [bind, Option.bind_eq_some_iff, pure] at h2
  obtain ⟨a, _, b, _, c, _, h2⟩ := h2
  split at h2
  · simp only [Option.bind_eq_some_iff] at h2
    obtain ⟨d, hd, e1, _, e2, _, e3, _, e4, _, h2⟩ := h2
    cases h2
    simp only [hm]
    exact hchk _ _ _ hd
  · simp only [Option.bind_eq_some_iff] at h2
    obtain ⟨d, hd, e1, _, e2, _, e3, _, e4, _, h2⟩ := h2
    cases h2
    cases hd
    simp only [hm]

/-! ### The invariant -/

structure Inv (s : State W) (tr : List (Ev W Nat)) : Prop where
  cut : ∀ o, s.bin = some o → Cut o
  gone : s.bo.redirect = true → s.got = [] ∧ s.q.wait = []
  exact : s.bo.redirect = false → s.got.map Insn.of ++ s.q.wait.map Insn.of ++ held s = delivered tr

theorem take_cut {b : BackOut} {old : Slots W Nat} {out : Option (Out W Nat)} (h : ∀ o, old = some o → Cut o) :
    ∀ o, take b old out = some o → Cut o := by
  intro o ho
  unfold take at ho
  split at ho
  · obtain ⟨g, _, rfl⟩ := Option.map_eq_some_iff.mp ho
    exact cut_cut g
  · exact h o ho

theorem clear_cut {b : BackOut} {fire : Bool} {s : Slots W Nat} (h : ∀ o, s = some o → Cut o) :
    ∀ o, clear b fire s = some o → Cut o := by
  intro o ho
  unfold clear at ho
  split at ho
  · obtain ⟨g, hg, rfl⟩ := Option.map_eq_some_iff.mp ho
    intro i j hij hv hd
    simp only [Bool.and_eq_true] at hv ⊢
    have := h g hg i j hij hv.1 hd
    simp [this]
  · exact h o ho

theorem clear_id {b : BackOut} {s : Slots W Nat} : clear b false s = s := by
  unfold clear
  split
  · cases s <;> simp
  · rfl

theorem step_gone {MI N : Nat} {s q : FetchWindow.Sys} {i : FetchWindow.Input} (h : FetchWindow.step MI N s i = some q)
    (hr : i.flush = true ∨ i.mispred.isSome = true) : q.wait = [] := by
  unfold FetchWindow.step at h
  obtain ⟨pre, _, rfl⟩ := Option.map_eq_some_iff.mp h
  cases hf : i.flush with
  | true => simp
  | false =>
    rw [hf] at hr
    cases hm : i.mispred with
    | none => simp [hm] at hr
    | some p => simp

theorem step_go {MI N : Nat} {s q : FetchWindow.Sys} {i : FetchWindow.Input} (h : FetchWindow.step MI N s i = some q)
    (hf : i.flush = false) (hm : i.mispred = none) :
    q.wait = s.wait.drop i.fire ++ if FetchWindow.taken MI N s i then FetchWindow.fetched s.pre.ftq.tail i.block i.group else [] := by
  unfold FetchWindow.step at h
  obtain ⟨pre, _, rfl⟩ := Option.map_eq_some_iff.mp h
  simp [hf, hm]

theorem backOut_live {old : BackOut} {f m r : Bool} {pc : W32} {fe : Bool} (h : (backOut old f m r pc fe).redirect = false) :
    f = false ∧ m = false := by
  unfold backOut at h
  cases f <;> simp_all

theorem stalled_clear {old : BackOut} {f m r : Bool} {pc : W32} {fe : Bool} {b : Slots W Nat}
    (h : (backOut old f m r pc fe).redirect = false) (hs : (backOut old f m r pc fe).stall = true) :
    clear (backOut old f m r pc fe) r b = b := by
  obtain ⟨rfl, rfl⟩ := backOut_live h
  cases r with
  | true => simp [backOut] at hs
  | false => exact clear_id

/-- The back end takes the group over, or leaves it where it is. -/
theorem back_exact {MI N : Nat} {s q : FetchWindow.Sys} {c : Back} {b : Slots W Nat} {old : BackOut} {rdy : Bool}
    (hcut : ∀ o, b = some o → Cut o) (h2 : FetchWindow.step MI N s (window b c) = some q) (got : List Flight)
    (hrdy : PreIdu.ready MI N s.pre (c.mispred.isSome || c.sawFlush) (group b) = rdy)
    (hr : (backOut old c.flush c.mispred.isSome rdy c.pc c.fenceI).redirect = false) :
    (got ++ s.wait.take c.fire).map Insn.of ++ q.wait.map Insn.of ++
        (if (backOut old c.flush c.mispred.isSome rdy c.pc c.fenceI).stall then insns b else []) =
      got.map Insn.of ++ s.wait.map Insn.of ++ insns b := by
  obtain ⟨hf, hm⟩ := backOut_live hr
  have hm' : c.mispred = none := by
    cases h : c.mispred with
    | none => rfl
    | some p => rw [h] at hm; cases hm
  have hq := step_go h2 hf hm'
  have hstall : (backOut old c.flush c.mispred.isSome rdy c.pc c.fenceI).stall = !rdy := by simp [backOut, hf]
  have htk : FetchWindow.taken MI N s (window b c) = (rdy && (group b).any Option.isSome) := by
    simp only [FetchWindow.taken, window, hrdy]
  rw [hq, hstall, htk]
  show _ ++ List.map Insn.of (s.wait.drop c.fire ++ if (rdy && (group b).any Option.isSome) = true then
    FetchWindow.fetched s.pre.ftq.tail (block b) (group b) else []) ++ _ = _
  cases hrd : rdy with
  | false =>
    simp only [Bool.false_and, Bool.false_eq_true, if_false, Bool.not_false, if_true, List.append_nil]
    simp only [List.map_append, List.map_take, List.map_drop, List.append_assoc]
    congr 1
    rw [← List.append_assoc, List.take_append_drop]
  | true =>
    cases hany : (group b).any Option.isSome with
    | false =>
      have hn := insns_nil hcut hany
      simp only [Bool.and_false, Bool.false_eq_true, if_false, Bool.not_true, List.append_nil, hn]
      simp only [List.map_append, List.map_take, List.map_drop, List.append_assoc, List.take_append_drop]
    | true =>
      simp only [Bool.and_true, if_true, Bool.not_true, Bool.false_eq_true, if_false, List.append_nil]
      have hfi := fetched_insns hcut s.pre.ftq.tail
      simp only [List.map_append, hfi]
      simp only [List.map_take, List.map_drop, List.append_assoc]
      congr 1
      rw [← List.append_assoc, List.take_append_drop]

/-- The parts of a cycle. -/
theorem cycle_parts {k : Cfg} {MI N : Nat} {s s' : State W} {i : In W Nat} {c : Back} {e : Ev W Nat}
    (h : cycle k MI N s i c = some (s', e)) :
    ∃ fr resp o q, s.fr.cycle k (drive s.bo i) = some (fr, resp, o) ∧
      FetchWindow.step MI N s.q (window (take s.bo s.bin o.out) c) = some q ∧
      e = ⟨false, if s.bo.redirect then some s.bo.pc else none, resp, o.out⟩ ∧
      (let rdy := PreIdu.ready MI N s.q.pre (c.mispred.isSome || c.sawFlush) (group (take s.bo s.bin o.out))
       let bo := backOut s.bo c.flush c.mispred.isSome rdy c.pc c.fenceI
       s' = ⟨fr, clear bo rdy (take s.bo s.bin o.out), bo, q, if bo.redirect then [] else s.got ++ s.q.wait.take c.fire⟩) := by
  unfold cycle at h
  simp only [bind, Option.bind_eq_some_iff, pure, Option.some.injEq, Prod.mk.injEq] at h
  obtain ⟨⟨fr, resp, o⟩, h1, q, h2, h3, h4⟩ := h
  exact ⟨fr, resp, o, q, h1, h2, h4.symm, h3.symm⟩

theorem inv_step {k : Cfg} {MI N : Nat} {s s' : State W} {i : In W Nat} {c : Back} {e : Ev W Nat} {tr : List (Ev W Nat)}
    (hI : Inv s tr) (h : cycle k MI N s i c = some (s', e)) (hred : s.bo.redirect = true → e.out = none) : Inv s' (e :: tr) := by
  obtain ⟨fr, resp, o, q, h1, h2, rfl, h4⟩ := cycle_parts h
  -- what is in front of the back end, together with what has gone in, is what was delivered
  have hcut := take_cut (b := s.bo) (out := o.out) hI.cut
  have hall : s.got.map Insn.of ++ s.q.wait.map Insn.of ++ insns (take s.bo s.bin o.out) =
      delivered (⟨false, if s.bo.redirect then some s.bo.pc else none, resp, o.out⟩ :: tr) := by
    cases hr : s.bo.redirect with
    | true =>
      have ho : o.out = none := hred hr
      obtain ⟨g1, g2⟩ := hI.gone hr
      simp [g1, g2, take, readEn, hr, ho, insns, delivered]
    | false =>
      simp only [delivered, Bool.false_eq_true, if_false, Option.isSome_none]
      rw [← hI.exact hr]
      cases hs : s.bo.stall with
      | true =>
        have hre : readEn s.bo = false := by simp [readEn, hs, hr]
        have ho : o.out = none := out_asked h1 hre
        simp [take, hre, ho, held, hs, insns]
      | false =>
        have hre : readEn s.bo = true := by simp [readEn, hs]
        have : insns (take s.bo s.bin o.out) = (o.out.map insnsOf).getD [] := by
          simp only [take, hre, if_true, insns, Option.map_map]
          cases o.out with
          | none => rfl
          | some g => simp [insnsOf_cut]
        simp [held, hs, this]
  generalize hb : take s.bo s.bin o.out = b at *
  generalize hrdy : PreIdu.ready MI N s.q.pre (c.mispred.isSome || c.sawFlush) (group b) = rdy at *
  subst h4
  refine ⟨clear_cut hcut, ?_, ?_⟩
  · intro hr
    refine ⟨by simp only at hr ⊢; rw [if_pos hr], ?_⟩
    refine step_gone h2 ?_
    show c.flush = true ∨ c.mispred.isSome = true
    cases hf : c.flush with
    | true => exact Or.inl rfl
    | false =>
      simp only [backOut, hf, Bool.false_eq_true, if_false] at hr
      exact Or.inr hr
  · intro hr
    have hgot : (if (backOut s.bo c.flush c.mispred.isSome rdy c.pc c.fenceI).redirect = true then []
        else s.got ++ s.q.wait.take c.fire) = s.got ++ s.q.wait.take c.fire := if_neg (by rw [hr]; simp)
    simp only [hgot, held]
    rw [← hall, ← back_exact hcut h2 s.got (hrdy := hrdy) hr]
    split
    · rename_i hs
      rw [stalled_clear hr hs]
      rfl
    · rfl

theorem reach_all [NeZero W] {k : Cfg} (hcap : k.ptabCap - 1 ≤ k.instCap) {MI N : Nat} {tr : List (Ev W Nat)} {w : World}
    {s : State W} (h : Reach k MI N tr w s) : FRun k tr w s.fr ∧ FetchWindow.Reach MI N s.q ∧ Inv s tr := by
  induction h with
  | init w =>
    refine ⟨.init w, .init, ⟨fun o h => (by cases h), fun h => (by cases h), fun _ => rfl⟩⟩
  | @step tr w w' s s' e i c h0 hc hok ih =>
    obtain ⟨ih1, ih2, ih3⟩ := ih
    obtain ⟨fr, resp, o, q, h1, h2, he, h4⟩ := cycle_parts hc
    have hf : FRun k (e :: tr) w' fr := by
      have := FRun.step (drive s.bo i) ih1 hok.ports hok.world h1
      rw [he]; exact this
    have hout : s.bo.redirect = true → e.out = none := by
      intro hr
      cases ho : e.out with
      | none => rfl
      | some g =>
        have := (Props.C80_fetch hcap hf g ho).1
        rw [he] at this
        simp [hr] at this
    refine ⟨by rw [h4]; exact hf, ?_, inv_step ih3 hc hout⟩
    have hq : s'.q = q := by rw [h4]
    rw [hq]
    have hb := hok.back
    rw [he] at hb
    exact .step _ ih2 hb h2

/-! ### With the oracle -/

structure OInv (s : OState W) (del : List Insn) : Prop where
  cut : ∀ o, (s.p.out.map cut) = some o → Cut o
  gone : s.bo.redirect = true → s.got = [] ∧ s.q.wait = []
  pend : s.bo.redirect = false → s.bo.stall = true → s.p.pending = true
  exact : s.bo.redirect = false → s.got.map Insn.of ++ s.q.wait.map Insn.of ++ s.held = del

theorem ocycle_parts {MI N : Nat} {s s' : OState W} {out : Option (Out W Nat)} {c : Back}
    (h : ocycle MI N s out c = some s') :
    ∃ q, FetchWindow.step MI N s.q (window (takeOracle s.bo s.p out).2 c) = some q ∧
      (let rdy := PreIdu.ready MI N s.q.pre (c.mispred.isSome || c.sawFlush) (group (takeOracle s.bo s.p out).2)
       let bo := backOut s.bo c.flush c.mispred.isSome rdy c.pc c.fenceI
       s' = ⟨(takeOracle s.bo s.p out).1, bo, q, if bo.redirect then [] else s.got ++ s.q.wait.take c.fire⟩) := by
  unfold ocycle at h
  simp only [bind, Option.bind_eq_some_iff, pure, Option.some.injEq] at h
  obtain ⟨q, h2, h3⟩ := h
  exact ⟨q, h2, h3.symm⟩

theorem oinv_reach {MI N : Nat} {del : List Insn} {s : OState W} (h : OReach MI N del s) : OInv s del := by
  induction h with
  | init =>
    exact ⟨fun o h => (by cases h), fun h => (by cases h), fun _ h => (by cases h), fun _ => rfl⟩
  | @step del s s' out c h0 hc hv hI =>
    obtain ⟨q, h2, h4⟩ := ocycle_parts hc
    have hp2 : (takeOracle s.bo s.p out).2 = (takeOracle s.bo s.p out).1.out.map cut := rfl
    have hcut : ∀ o, (takeOracle s.bo s.p out).2 = some o → Cut o := by
      intro o ho
      rw [hp2] at ho
      obtain ⟨g, _, rfl⟩ := Option.map_eq_some_iff.mp ho
      exact cut_cut g
    have hins : ∀ x : Option (Out W Nat), insns (x.map cut) = (x.map insnsOf).getD [] := by
      intro x
      cases x with
      | none => rfl
      | some g => simp [insns, insnsOf_cut]
    have hall : s.got.map Insn.of ++ s.q.wait.map Insn.of ++ insns (takeOracle s.bo s.p out).2 = odeliver s out del := by
      unfold odeliver
      cases hr : s.bo.redirect with
      | true =>
        obtain ⟨g1, g2⟩ := hI.gone hr
        have ha : asks s.bo s.p = true := by simp [asks, hr]
        simp [g1, g2, takeOracle, ha, hins]
      | false =>
        rw [← hI.exact hr]
        by_cases ha : asks s.bo s.p = true
        · have hs : s.bo.stall = false := by
            cases hs : s.bo.stall with
            | false => rfl
            | true => simp [asks, hs, hr, hI.pend hr hs] at ha
          simp [takeOracle, ha, hins, OState.held, hs]
        · have hs : s.bo.stall = true := by
            cases hs : s.bo.stall with
            | true => rfl
            | false => simp [asks, hs] at ha
          simp [takeOracle, ha, OState.held, hs, hins]
    have hpend : (takeOracle s.bo s.p out).1.pending = true := by
      by_cases ha : asks s.bo s.p = true
      · simp [takeOracle, ha]
      · have : s.p.pending = true := by
          cases hp : s.p.pending with
          | true => rfl
          | false => simp [asks, hp] at ha
        simp [takeOracle, ha, this]
    subst h4
    refine ⟨hcut, ?_, fun _ _ => hpend, ?_⟩
    · intro hr
      refine ⟨by simp only at hr ⊢; rw [if_pos hr], ?_⟩
      refine step_gone h2 ?_
      show c.flush = true ∨ c.mispred.isSome = true
      cases hf : c.flush with
      | true => exact Or.inl rfl
      | false =>
        simp only [backOut, hf, Bool.false_eq_true, if_false] at hr
        exact Or.inr hr
    · intro hr
      simp only at hr
      have := back_exact hcut h2 s.got rfl hr
      rw [hall] at this
      rw [← this]
      simp only [OState.held, hr, Bool.false_eq_true, if_false]
      rw [hp2, hins]

end Verif.HandOff

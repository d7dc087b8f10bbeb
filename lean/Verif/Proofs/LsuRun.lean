import Verif.Proofs.LsuReach

/-! Concrete executions: a checker for the assumptions on the surroundings, and executions in which no
store can be without effect. -/
namespace Verif.Lsu

open Verif.Ring Verif.Lane Verif.Spec.ByteMem Verif.Spec.MemOrder

/-- Load slot named by an event. -/
def Ev.load : Ev → Nat
  | .allocLd i .. | .ldReq i _ | .ldTlb i _ | .ldWin i | .ldStlf i _ | .ldIssue i | .ldSample i | .ldResp i _ | .ldWb i => i
  | _ => 0

/-- Load slots from `b` on are free. -/
def Small (b : Nat) (s : Sys) : Prop := ∀ i, b ≤ i → (s.lsu.ldq i).st = .empty

/-- `Sys.Valid` for states that use load slots below `b` only. -/
def validB (b n : Nat) (s : Sys) (e : Ev) : Bool :=
  decide (e.load < b) &&
  match e with
  | .allocSt .. => s.lsu.count < n
  | .allocLd i sz sg _ _ => (s.lsu.ldq i).st = .empty && decide (loadCode sz sg ≠ none)
  | .stData k _ => s.prog.committed ≤ k && k < s.prog.len && decide ((s.prog.slots k).data = none)
  | .stAddr k => s.prog.committed ≤ k && k < s.prog.len && decide ((s.prog.slots k).sta = false)
  | .stTlb k r => s.prog.committed ≤ k && k < s.prog.len && decide ((s.lsu.stq (tagIdx n k)).st = .waitTlb) &&
      decide (okTlb (s.prog.slots k).size r)
  | .stWin k => s.prog.committed ≤ k && k < s.prog.len
  | .stWb k => s.prog.committed ≤ k && k < s.prog.len
  | .ldReq i f3 => (s.lsu.ldq i).st = .allocated && decide (loadCode (s.prog.loads i).size (s.prog.loads i).signed = some f3)
  | .ldTlb i r => (s.lsu.ldq i).st = .waitTlb && decide (okTlb (s.prog.loads i).size r)
  | .ldStlf i _ => (s.lsu.ldq i).st = .checkStlf
  | .ldSample i => (s.lsu.ldq i).st = .waitDcacheResp
  | .ldResp i hit => (s.lsu.ldq i).st = .waitDcacheResp && decide (hit = true → s.samp i ≠ none)
  | .commit => s.prog.committed < s.prog.len && (s.prog.slots s.prog.committed).reported &&
      !(s.prog.slots s.prog.committed).fault &&
      decide (∀ i < b, (s.lsu.ldq i).st ≠ .empty → s.prog.committed < (s.prog.loads i).older)
  | .trapStore => s.prog.committed < s.prog.len && (s.prog.slots s.prog.committed).reported
  | .mispred m cut => s.prog.committed ≤ cut && cut ≤ s.prog.len &&
      decide (∀ k < s.prog.len, s.retired ≤ k → ((s.ent n k).brMask &&& m ≠ 0#16 ↔ cut ≤ k)) &&
      decide (∀ i < b, (s.lsu.ldq i).st ≠ .empty → (s.lsu.ldq i).brMask &&& m = 0#16 → (s.prog.loads i).older ≤ cut)
  | .stPerform idx => match s.pend idx with
    | some (_, x) => !x
    | none => false
  | .stResp idx hit => match s.pend idx with
    | some (_, x) => x == hit
    | none => false
  | _ => true

theorem valid_of_validB {b n : Nat} {s : Sys} (hs : Small b s) {e : Ev} (h : validB b n s e = true) :
    e.load < b ∧ s.Valid n e := by
  unfold validB at h
  rw [Bool.and_eq_true, decide_eq_true_eq] at h
  refine ⟨h.1, ?_⟩
  have h := h.2
  have hb : ∀ i, (s.lsu.ldq i).st ≠ .empty → i < b := by
    intro i hi
    apply Classical.byContradiction
    intro e
    exact hi (hs i (by omega))
  cases e <;> simp only [Bool.and_eq_true, decide_eq_true_eq, Bool.not_eq_true'] at h <;> simp only [Sys.Valid, Sys.live]
  case allocSt => exact h
  case allocLd => exact h
  case stData => exact h
  case stAddr => exact h
  case stTlb => exact ⟨h.1.1, h.1.2, h.2⟩
  case stWin => exact h
  case stWb => exact h
  case ldReq => exact h
  case ldTlb => exact h
  case ldStlf => exact h
  case ldSample => exact h
  case ldResp => exact h
  case commit => exact ⟨h.1.1.1, h.1.1.2, h.1.2, fun i hi => h.2 i (hb i hi) hi⟩
  case trapStore => exact h
  case mispred => exact ⟨h.1.1.1, h.1.1.2, fun k h1 h2 => h.1.2 k h2 h1, fun i hi => h.2 i (hb i hi) hi⟩
  case stPerform =>
    split at h
    · next q x he =>
      have hx : x = false := by simpa using h
      exact ⟨q, by rw [he, hx]⟩
    · cases h
  case stResp =>
    split at h
    · next q x he => exact ⟨q, by rw [he, eq_of_beq h]⟩
    · cases h

theorem upd_ldq_small {b i : Nat} {f : Nat → LdqEntry} (h : ∀ j, b ≤ j → (f j).st = .empty) (hi : i < b) (e : LdqEntry) :
    ∀ j, b ≤ j → (upd f i e j).st = .empty := by
  intro j hj
  rw [upd_ne _ _ (by omega : j ≠ i)]
  exact h j hj

theorem small_step {b n : Nat} {s s' : Sys} (hs : Small b s) {e : Ev} (he : e.load < b) (h : s.step n e = some s') : Small b s' := by
  have key : ∀ l : State, (∀ j, b ≤ j → (l.ldq j).st = .empty) → s'.lsu = l → Small b s' := by
    intro l h1 h2 j hj; rw [h2]; exact h1 j hj
  cases e with
  | allocSt =>
    obtain ⟨l, hl, h⟩ := Option.map_eq_some_iff.mp h
    unfold allocStq at hl
    split at hl
    · cases hl
    · split at hl
      · cases hl
      · injection hl with hl; subst hl; subst h; exact hs
  | allocLd i =>
    obtain ⟨l, hl, h⟩ := Option.map_eq_some_iff.mp h
    unfold allocLdq at hl
    split at hl
    · cases hl
    · injection hl with hl; subst hl; subst h; exact upd_ldq_small hs he _
  | stData => injection h with h; subst h; exact hs
  | stAddr => injection h with h; subst h; exact hs
  | stTlb k r =>
    injection h with h; subst h
    unfold Small tlbStore
    dsimp only
    split
    · exact hs
    · cases r <;> exact hs
  | stWin =>
    injection h with h; subst h
    unfold Small windowStore
    dsimp only
    split <;> exact hs
  | stWb =>
    injection h with h; subst h
    unfold Small wbStore
    dsimp only
    split
    · exact hs
    · split <;> exact hs
  | ldReq i => injection h with h; subst h; exact upd_ldq_small hs he _
  | ldTlb i r =>
    injection h with h; subst h
    unfold Small tlbLoad
    dsimp only
    split
    · exact hs
    · cases r <;> exact upd_ldq_small hs he _
  | ldWin i =>
    injection h with h; subst h
    unfold Small windowLoad
    dsimp only
    split
    · exact upd_ldq_small hs he _
    · exact upd_ldq_small hs he _
    · exact upd_ldq_small hs he _
    · exact hs
  | ldStlf i =>
    obtain ⟨l, hl, h⟩ := Option.map_eq_some_iff.mp h
    subst h
    unfold stlf at hl
    dsimp only at hl
    split at hl
    · cases hl
    · split at hl
      · split at hl
        · injection hl with hl; subst hl; exact upd_ldq_small hs he _
        · injection hl with hl; subst hl; exact hs
      · split at hl
        · injection hl with hl; subst hl; exact upd_ldq_small hs he _
        · injection hl with hl; subst hl; exact upd_ldq_small hs he _
        · injection hl with hl; subst hl; exact hs
  | ldIssue i =>
    injection h with h; subst h
    unfold Small issueLoad
    dsimp only
    split
    · exact hs
    · exact upd_ldq_small hs he _
  | ldSample => injection h with h; subst h; exact hs
  | ldResp i hit =>
    injection h with h; subst h
    unfold Small respLoad
    dsimp only
    split
    · exact hs
    · split <;> exact upd_ldq_small hs he _
  | ldWb i =>
    injection h with h; subst h
    unfold Small wbLoad
    dsimp only
    split
    · exact hs
    · exact upd_ldq_small hs he _
  | commit =>
    obtain ⟨l, hl, h⟩ := Option.map_eq_some_iff.mp h
    subst h
    unfold commitStore at hl
    dsimp only at hl
    split at hl
    · injection hl with hl; subst hl; exact hs
    · cases hl
  | trapStore =>
    obtain ⟨l, hl, h⟩ := Option.map_eq_some_iff.mp h
    subst h
    intro j _; rfl
  | flush => injection h with h; subst h; intro j _; rfl
  | mispred m cut =>
    injection h with h; subst h
    intro j hj
    show (if _ then ({ s.lsu.ldq j with st := .empty } : LdqEntry) else s.lsu.ldq j).st = .empty
    split
    · rfl
    · exact hs j hj
  | clear => injection h with h; subst h; exact hs
  | stIssue d =>
    injection h with h; subst h
    unfold Small issueStore
    dsimp only
    split
    · exact hs
    · split
      · exact hs
      · split
        · split <;> exact hs
        · split <;> exact hs
  | stPerform idx =>
    unfold Sys.step at h
    dsimp only at h
    split at h
    · injection h with h; subst h; exact hs
    · injection h with h; subst h; exact hs
  | stResp idx hit =>
    injection h with h; subst h
    unfold Small respStore
    dsimp only
    split <;> exact hs
  | retire =>
    injection h with h; subst h
    unfold Small
    split <;> (unfold retire; dsimp only; split <;> exact hs)
  | mmioResp v =>
    injection h with h; subst h
    unfold Small mmioResp
    dsimp only
    split
    · exact hs
    · split
      · split
        · next hst =>
          refine upd_ldq_small hs ?_ _
          apply Classical.byContradiction
          intro e
          rw [hs _ (by omega)] at hst
          cases hst
        · exact hs
      · exact hs

/-- Execute a list of events, checking the assumptions. -/
def runFrom (b n : Nat) (s : Sys) : List Ev → Option Sys
  | [] => some s
  | e :: es => if validB b n s e then (s.step n e).bind fun s' => runFrom b n s' es else none

theorem reach_runFrom {b n : Nat} {m : Mem} : ∀ (es : List Ev) (s s' : Sys), Sys.Reach n m s → Small b s →
    runFrom b n s es = some s' → Sys.Reach n m s' := by
  intro es
  induction es with
  | nil => intro s s' h _ h2; injection h2 with h2; subst h2; exact h
  | cons e es ih =>
    intro s s' h hsm h2
    unfold runFrom at h2
    split at h2
    · next hv =>
      obtain ⟨hv1, hv2⟩ := valid_of_validB hsm hv
      cases hst : s.step n e with
      | none => rw [hst] at h2; cases h2
      | some s1 =>
        rw [hst] at h2
        exact ih s1 s' (.step e h hv2 hst) (small_step hsm hv1 hst) h2
    · cases h2

theorem reach_run {b n : Nat} {m : Mem} {es : List Ev} {s : Sys} (h : runFrom b n (Sys.init m) es = some s) : Sys.Reach n m s :=
  reach_runFrom es _ s .init (fun _ _ => rfl) h

/-! ## Executions without store-conditionals and without traps at stores -/

def Ev.plain : Ev → Bool
  | .allocSt _ sc _ => !sc
  | .trapStore => false
  | _ => true

inductive Sys.ReachPlain (n : Nat) (m : Mem) : Sys → Prop
  | init : ReachPlain n m (Sys.init m)
  | step {s s' : Sys} (e : Ev) : ReachPlain n m s → s.Valid n e → e.plain = true → s.step n e = some s' → ReachPlain n m s'

theorem Sys.ReachPlain.reach {n : Nat} {m : Mem} {s : Sys} (h : Sys.ReachPlain n m s) : Sys.Reach n m s := by
  induction h with
  | init => exact .init
  | step e _ hv _ hs ih => exact .step e ih hv hs

structure NoBad (s : Sys) : Prop where
  q : ∀ i, (s.lsu.stq i).lrsc = false ∧ (s.lsu.stq i).suppress = false
  sl : ∀ k, (s.prog.slots k).isSc = false
  bad : ∀ i, s.badFwd i = false

theorem upd_all {α : Type} {P : α → Prop} {f : Nat → α} (h : ∀ i, P (f i)) {k : Nat} {x : α} (hx : P x) : ∀ i, P (upd f k x i) := by
  intro i
  unfold upd
  split
  · exact hx
  · exact h i

theorem noBad_step {n : Nat} {s s' : Sys} (h : NoBad s) {e : Ev} (hp : e.plain = true) (hs : s.step n e = some s') : NoBad s' := by
  obtain ⟨hq, hsl, hb⟩ := h
  have hU : ∀ (k : Nat) (x : StqEntry), x.lrsc = false → x.suppress = false →
      ∀ i, (upd s.lsu.stq k x i).lrsc = false ∧ (upd s.lsu.stq k x i).suppress = false :=
    fun k x h1 h2 => upd_all (P := fun e : StqEntry => e.lrsc = false ∧ e.suppress = false) hq ⟨h1, h2⟩
  have hS : ∀ (k : Nat) (x : Slot), x.isSc = false → ∀ i, (upd s.prog.slots k x i).isSc = false :=
    fun k x h1 => upd_all (P := fun e : Slot => e.isSc = false) hsl h1
  cases e with
  | allocSt sz sc mask =>
    obtain ⟨l, hl, hs⟩ := Option.map_eq_some_iff.mp hs
    subst hs
    unfold allocStq at hl
    split at hl
    · cases hl
    · split at hl
      · cases hl
      · injection hl with hl; subst hl
        exact ⟨hU _ _ rfl rfl, hS _ _ (by simpa [Ev.plain] using hp), hb⟩
  | allocLd i =>
    obtain ⟨l, hl, hs⟩ := Option.map_eq_some_iff.mp hs
    subst hs
    unfold allocLdq at hl
    split at hl
    · cases hl
    · injection hl with hl; subst hl; exact ⟨hq, hsl, hb⟩
  | stData k v =>
    injection hs with hs; subst hs
    refine ⟨hU _ _ ?_ ?_, hS _ _ (hsl k), hb⟩
    · split <;> exact (hq _).1
    · split <;> exact (hq _).2
  | stAddr k => injection hs with hs; subst hs; exact ⟨hU _ _ (hsl k) (hq _).2, hS _ _ (hsl k), hb⟩
  | stTlb k r =>
    injection hs with hs; subst hs
    refine ⟨?_, ?_, hb⟩
    · unfold tlbStore
      dsimp only
      split
      · exact hq
      · cases r <;> exact hU _ _ (hq _).1 (hq _).2
    · cases r
      · exact hS _ _ (hsl k)
      · exact hS _ _ (hsl k)
      · exact hsl
  | stWin k =>
    injection hs with hs; subst hs
    refine ⟨?_, hsl, hb⟩
    unfold windowStore
    dsimp only
    split
    · exact hU _ _ (hq _).1 (hq _).2
    · exact hU _ _ (hq _).1 (hq _).2
    · exact hq
  | stWb k =>
    injection hs with hs; subst hs
    refine ⟨?_, ?_, hb⟩
    · unfold wbStore
      dsimp only
      split
      · exact hq
      · split
        · next hc => rw [(hq _).1] at hc; cases hc.1
        · exact hU _ _ (hq _).1 (hq _).2
    · dsimp only
      split
      · exact hS _ _ (hsl k)
      · exact hsl
  | ldReq => injection hs with hs; subst hs; exact ⟨hq, hsl, hb⟩
  | ldTlb i r =>
    injection hs with hs; subst hs
    refine ⟨?_, hsl, hb⟩
    unfold tlbLoad
    dsimp only
    split
    · exact hq
    · cases r <;> exact hq
  | ldWin i =>
    injection hs with hs; subst hs
    refine ⟨?_, hsl, hb⟩
    unfold windowLoad
    dsimp only
    split <;> exact hq
  | ldStlf i o =>
    obtain ⟨l, hl, hs⟩ := Option.map_eq_some_iff.mp hs
    subst hs
    refine ⟨?_, hsl, upd_all (P := fun b => b = false) hb ?_⟩
    · unfold stlf at hl
      dsimp only at hl
      split at hl
      · cases hl
      · split at hl
        · split at hl <;> (injection hl with hl; subst hl; exact hq)
        · split at hl <;> (injection hl with hl; subst hl; exact hq)
    · unfold badScan
      dsimp only
      split
      · unfold at'
        rw [(hq _).1, (hq _).2]; rfl
      · rfl
  | ldIssue i =>
    injection hs with hs; subst hs
    refine ⟨?_, hsl, hb⟩
    unfold issueLoad
    split <;> exact hq
  | ldSample => injection hs with hs; subst hs; exact ⟨hq, hsl, hb⟩
  | ldResp i hit =>
    injection hs with hs; subst hs
    refine ⟨?_, hsl, hb⟩
    unfold respLoad
    dsimp only
    split
    · exact hq
    · split <;> exact hq
  | ldWb i =>
    injection hs with hs; subst hs
    refine ⟨?_, hsl, hb⟩
    unfold wbLoad
    dsimp only
    split <;> exact hq
  | commit =>
    obtain ⟨l, hl, hs⟩ := Option.map_eq_some_iff.mp hs
    subst hs
    refine ⟨?_, hsl, hb⟩
    unfold commitStore at hl
    dsimp only at hl
    split at hl
    · injection hl with hl; subst hl
      dsimp only
      rw [if_neg (by decide)]
      split
      · next hc => rw [(hq _).1] at hc; cases hc.1
      · exact hU _ _ (hq _).1 (hq _).2
    · cases hl
  | trapStore => cases hp
  | flush => injection hs with hs; subst hs; exact ⟨hq, hsl, hb⟩
  | mispred m cut => injection hs with hs; subst hs; exact ⟨hq, hsl, hb⟩
  | clear m => injection hs with hs; subst hs; exact ⟨hq, hsl, hb⟩
  | stIssue d =>
    injection hs with hs; subst hs
    refine ⟨?_, hsl, hb⟩
    unfold issueStore
    dsimp only
    split
    · exact hq
    · split
      · exact hq
      · split
        · split
          · exact hU _ _ (hq _).1 (hq _).2
          · exact hq
        · split <;> exact hU _ _ (hq _).1 (hq _).2
  | stPerform idx =>
    unfold Sys.step at hs
    dsimp only at hs
    split at hs <;> (injection hs with hs; subst hs; exact ⟨hq, hsl, hb⟩)
  | stResp idx hit =>
    injection hs with hs; subst hs
    refine ⟨?_, hsl, hb⟩
    unfold respStore
    dsimp only
    split
    · exact hq
    · exact hU _ _ (hq _).1 (hq _).2
  | retire =>
    injection hs with hs; subst hs
    have hr : (Lsu.retire n s.lsu).stq = s.lsu.stq := by
      unfold Lsu.retire; split <;> rfl
    split
    · exact ⟨by rw [hr]; exact hq, hsl, hb⟩
    · exact ⟨by rw [hr]; exact hq, hsl, hb⟩
  | mmioResp v =>
    injection hs with hs; subst hs
    refine ⟨?_, hsl, hb⟩
    unfold Lsu.mmioResp
    dsimp only
    split
    · exact hq
    · split
      · exact hq
      · dsimp only
        split
        · exact hU _ _ (hq _).1 (hq _).2
        · exact hq

theorem noBad_reach {n : Nat} {m : Mem} {s : Sys} (h : Sys.ReachPlain n m s) : NoBad s := by
  induction h with
  | init => exact ⟨fun _ => ⟨rfl, rfl⟩, fun _ => rfl, fun _ => rfl⟩
  | step e _ _ hp hs ih => exact noBad_step ih hp hs

theorem reachPlain_runFrom {b n : Nat} {m : Mem} : ∀ (es : List Ev) (s s' : Sys), Sys.ReachPlain n m s → Small b s →
    es.all Ev.plain = true → runFrom b n s es = some s' → Sys.ReachPlain n m s' := by
  intro es
  induction es with
  | nil => intro s s' h _ _ h2; injection h2 with h2; subst h2; exact h
  | cons e es ih =>
    intro s s' h hsm hp h2
    rw [List.all_cons, Bool.and_eq_true] at hp
    unfold runFrom at h2
    split at h2
    · next hv =>
      obtain ⟨hv1, hv2⟩ := valid_of_validB hsm hv
      cases hst : s.step n e with
      | none => rw [hst] at h2; cases h2
      | some s1 =>
        rw [hst] at h2
        exact ih s1 s' (.step e h hv2 hp.1 hst) (small_step hsm hv1 hst) hp.2 h2
    · cases h2

end Verif.Lsu

import Verif.Proofs.MemTop
import Verif.Proofs.LsuRun
import Verif.Props.Dcache

/-! Concrete executions of load/store unit, routing block, data cache and interconnect: a checker for the assumptions on the surroundings. -/
namespace Verif.MemTop

open Verif.Lsu (Small)
open Verif.Dcache (Line)
open Verif.MemRoute (Resp)

/-- `State.Valid` for states that use load slots below `b` only. -/
def validB {p : Nat} (b n : Nat) (s : State p) : Ev → Bool
  | .lsu e => plainEv e && Lsu.validB b n s.u e
  | .ldIssue i id => decide (i < b) && s.ph.isSome && decide (s.ports.length < p + 1) && decide ((s.u.lsu.ldq i).st = .readyToIssue) &&
      decide (id.toNat < 2 ^ 31) && decide (s.who id = none) && s.ports.all fun q => decide (q.id ≠ id)
  | .stIssue _ => s.ph.isSome
  | .quiet e => s.ph.isNone && !slow e && Props.validB s.d e
  | .out resp ack _ => s.ph.isNone && Props.validB s.d (.tick true [] [] resp ack)
  | .inp .. => s.ph.isSome

theorem valid_of_validB {p b n : Nat} {s : State p} (hs : Small b s.u) {e : Ev} (h : validB b n s e = true) : s.Valid n e := by
  cases e with
  | lsu e =>
    simp only [validB, Bool.and_eq_true] at h
    exact ⟨h.1, (Lsu.valid_of_validB hs h.2).2⟩
  | ldIssue i id =>
    simp only [validB, Bool.and_eq_true, decide_eq_true_eq, List.all_eq_true] at h
    exact ⟨h.1.1.1.1.1.2, h.1.1.1.1.2, h.1.1.1.2, h.1.1.2, h.1.2, h.2⟩
  | stIssue j => exact h
  | quiet e =>
    simp only [validB, Bool.and_eq_true, Option.isNone_iff_eq_none, Bool.not_eq_true'] at h
    exact ⟨h.1.1, h.1.2, Props.validB_sound h.2⟩
  | out resp ack fill =>
    simp only [validB, Bool.and_eq_true, Option.isNone_iff_eq_none] at h
    exact ⟨h.1, Props.validB_sound h.2⟩
  | inp ic wk dt it => exact h

theorem small_takeLoad {b : Nat} (late : BitVec 32 → Bool) : ∀ (rs : List Resp) (x : Lsu.Sys × (BitVec 32 → Option Nat)), Small b x.1 →
    Small b (rs.foldl (takeLoad late) x).1
  | [], _, h => h
  | r :: rs, x, h => by
    rw [List.foldl_cons]
    apply small_takeLoad late rs
    unfold takeLoad
    split
    · exact h
    · next i _ =>
      intro j hj
      by_cases e : j = i
      · subst e
        have h0 := h j hj
        dsimp only
        unfold Lsu.respLoad
        rw [if_pos (by rw [h0]; decide)]
        exact h0
      · exact (congrArg Lsu.LdqEntry.st (respLoad_other x.1.lsu _ e)).trans (h j hj)

theorem small_takeStore {b : Nat} : ∀ (rs : List Dcache.StResp) (u : Lsu.Sys), Small b u → Small b (rs.foldl takeStore u)
  | [], _, h => h
  | r :: rs, u, h => by
    rw [List.foldl_cons]
    apply small_takeStore rs
    intro j hj
    unfold takeStore
    dsimp only
    rw [respStore_ldq]
    exact h j hj

theorem small_step {p b n : Nat} {s s' : State p} (hs : Small b s.u) {e : Ev} (hv : validB b n s e = true) (h : s.step n e = some s') :
    Small b s'.u := by
  cases e with
  | lsu e =>
    simp only [validB, Bool.and_eq_true] at hv
    obtain ⟨u, hu, h⟩ := Option.map_eq_some_iff.mp h
    subst h
    exact Lsu.small_step hs (Lsu.valid_of_validB hs hv.2).1 hu
  | ldIssue i id =>
    simp only [validB, Bool.and_eq_true, decide_eq_true_eq] at hv
    unfold State.step at h
    obtain ⟨u, hu, h⟩ := Option.map_eq_some_iff.mp h
    subst h
    exact Lsu.small_step hs (e := .ldIssue i) hv.1.1.1.1.1.1 hu
  | stIssue j =>
    unfold State.step at h
    obtain ⟨u, hu, h⟩ := Option.map_eq_some_iff.mp h
    subst h
    intro i hi
    injection hu with hu
    subst hu
    dsimp only
    have hl := (issueStore_facts n s.u.lsu j).1
    rw [hl]
    exact hs i hi
  | quiet e =>
    obtain ⟨u, hu, h⟩ := Option.map_eq_some_iff.mp h
    subst h
    exact hs
  | out resp ack fill =>
    obtain ⟨u, hu, h⟩ := Option.map_eq_some_iff.mp h
    subst h
    exact small_takeStore _ _ (small_takeLoad _ _ _ hs)
  | inp ic wk dt it =>
    simp only [State.step] at h
    split at h
    · cases h
    · obtain ⟨u, hu, h⟩ := Option.map_eq_some_iff.mp h
      subst h
      exact hs

def runFrom {p : Nat} (b n : Nat) : State p → List Ev → Option (State p)
  | s, [] => some s
  | s, e :: es => if validB b n s e then (s.step n e).bind fun s' => runFrom b n s' es else none

theorem reach_runFrom {p b n : Nat} {mem : BitVec 32 → Line} : ∀ (es : List Ev) (s s' : State p), Reach p n mem s → Small b s.u →
    runFrom b n s es = some s' → Reach p n mem s'
  | [], s, s', h, _, e => by injection e with e; subst e; exact h
  | e :: es, s, s', h, hs, hr => by
    unfold runFrom at hr
    split at hr
    · next hv =>
      obtain ⟨s1, h1, h2⟩ := Option.bind_eq_some_iff.mp hr
      exact reach_runFrom es s1 s' (.step e h (valid_of_validB hs hv) h1) (small_step hs hv h1) h2
    · cases hr

theorem reach_run {p b n : Nat} {mem : BitVec 32 → Line} {es : List Ev} {s' : State p}
    (h : runFrom b n (State.init p mem (Spec.CacheMem.flat mem)) es = some s') : Reach p n mem s' :=
  reach_runFrom es _ _ .init (fun _ _ => rfl) h

end Verif.MemTop

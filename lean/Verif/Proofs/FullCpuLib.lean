import Verif.Spec.FullCpu
import Verif.Proofs.WholeRun
import Verif.Props.HandOff
/-
Lists on the way from the instruction buffer to the window.
-/
namespace Verif.FullCpuProofs
open Verif.Spine
open Verif.Decode (DecInst)
open Verif.Core (W Fetched)

variable {n : Nat}

/-- If the buffer offers instructions without a gap, decode takes a first piece of them. -/
theorem valid_prefix (r : Nat) : ∀ (l : List Bool) (tags : List Nat) (run : BitVec n), ∃ m, m ≤ l.length ∧
    (Idu.decodeLoop (l.map some ++ List.replicate r none) tags run).map (·.valid) =
      List.replicate m true ++ List.replicate (l.length + r - m) false
  | [], tags, run => by
    refine ⟨0, Nat.le_refl _, ?_⟩
    simp only [List.map_nil, List.nil_append, List.length_nil, Nat.zero_add, Nat.sub_zero, List.replicate_zero]
    induction r with
    | zero => rfl
    | succ r ih => simp only [List.replicate_succ, Idu.decodeLoop, List.map_cons, ih]
  | false :: l, tags, run => by
    obtain ⟨m, h1, h2⟩ := valid_prefix r l tags run
    refine ⟨m + 1, Nat.succ_le_succ h1, ?_⟩
    simp only [List.map_cons, List.cons_append, Idu.decodeLoop, h2, List.replicate_succ, List.length_cons]
    rw [show l.length + 1 + r - (m + 1) = l.length + r - m by omega]
  | true :: l, t :: tags, run => by
    obtain ⟨m, h1, h2⟩ := valid_prefix r l tags (run ||| Idu.bit n t)
    refine ⟨m + 1, Nat.succ_le_succ h1, ?_⟩
    simp only [List.map_cons, List.cons_append, Idu.decodeLoop, h2, List.replicate_succ, List.length_cons]
    rw [show l.length + 1 + r - (m + 1) = l.length + r - m by omega]
  | true :: l, [], run => by
    refine ⟨0, Nat.zero_le _, ?_⟩
    simp only [List.map_cons, List.cons_append, Idu.decodeLoop, List.map_map, List.length_cons, Nat.sub_zero, List.replicate_zero,
      List.nil_append]
    rw [show l.length + 1 + r = (l.length + r) + 1 by omega, List.replicate_succ]
    congr 1
    rw [List.eq_replicate_iff]
    refine ⟨by simp, fun b hb => ?_⟩
    obtain ⟨_, _, rfl⟩ := List.mem_map.1 hb
    rfl

theorem zip_prefix {α β : Type} (v : β → Bool) : ∀ (m r : Nat) (sl : List β) (as : List α), sl.length = as.length →
    sl.map v = List.replicate m true ++ List.replicate r false →
    (sl.zip as).filterMap (fun x => if v x.1 then some x.2 else none) = as.take m
  | 0, r, sl, as, _, h => by
    rw [List.take_zero, List.filterMap_eq_nil_iff]
    intro x hx
    have h1 : x.1 ∈ sl := (List.of_mem_zip hx).1
    have : v x.1 ∈ sl.map v := List.mem_map_of_mem h1
    rw [h] at this
    have : v x.1 = false := (by simpa using this : ¬r = 0 ∧ v x.1 = false).2
    rw [this]; rfl
  | m + 1, r, [], as, hl, h => by simp [List.replicate_succ] at h
  | m + 1, r, x :: sl, [], hl, h => by simp at hl
  | m + 1, r, x :: sl, a :: as, hl, h => by
    rw [List.replicate_succ, List.cons_append, List.map_cons, List.cons.injEq] at h
    rw [List.zip_cons_cons, List.filterMap_cons]
    simp only [h.1, if_true, List.take_succ_cons]
    rw [zip_prefix v m r sl as (by simpa using hl) h.2]

theorem filter_prefix {β : Type} (v : β → Bool) : ∀ (m r : Nat) (sl : List β),
    sl.map v = List.replicate m true ++ List.replicate r false → (sl.filter v).length = m ∧ (sl.takeWhile v).length = m
  | 0, 0, [], _ => ⟨rfl, rfl⟩
  | 0, r, x :: sl, h => by
    have hx : ∀ y ∈ x :: sl, v y = false := by
      intro y hy
      have : v y ∈ (x :: sl).map v := List.mem_map_of_mem hy
      rw [h] at this
      exact (by simpa using this : ¬r = 0 ∧ v y = false).2
    refine ⟨?_, ?_⟩
    · rw [List.filter_eq_nil_iff.2 (fun y hy => by rw [hx y hy]; simp)]; rfl
    · rw [List.takeWhile_cons, hx x List.mem_cons_self]; rfl
  | 0, r + 1, [], h => by simp at h
  | m + 1, r, [], h => by simp [List.replicate_succ] at h
  | m + 1, r, x :: sl, h => by
    rw [List.replicate_succ, List.cons_append, List.map_cons, List.cons.injEq] at h
    obtain ⟨h1, h2⟩ := filter_prefix v m r sl h.2
    simp [h.1, h1, h2]

/-- The numbers given are consecutive. -/
theorem number_uids {α : Type} : ∀ (ds : List (Option DecInst)) (sls : List (Idu.Slot n)) (as : List α) (m : Nat),
    sls.length = ds.length → as.length = ds.length →
    ((number m ds sls).filterMap id).map (·.uid) =
      List.range' m ((sls.zip as).filterMap fun x => if x.1.valid then some x.2 else none).length
  | [], [], _, _, _, _ => by simp [number]
  | [], _ :: _, _, _, h, _ => by simp at h
  | _ :: _, [], _, _, h, _ => by simp at h
  | _ :: _, _ :: _, [], _, _, h => by simp at h
  | d :: ds, sl :: sls, a :: as, m, h1, h2 => by
    have ih := fun m => number_uids ds sls as m (by simpa using h1) (by simpa using h2)
    rw [number, List.zip_cons_cons, List.filterMap_cons]
    cases hv : sl.valid with
    | true =>
      simp only [if_true, List.filterMap_cons, id, List.map_cons, List.length_cons, List.range'_succ]
      rw [ih]
    | false =>
      simp only [Bool.false_eq_true, if_false, List.filterMap_cons, id]
      rw [ih]

theorem map_getD {α : Type} (m : Nat) (d : α) (l : List α) : (List.range' m l.length).map (fun u => l.getD (u - m) d) = l := by
  apply List.ext_getElem
  · simp
  · intro i h1 h2
    simp [List.getElem_range', List.getD_eq_getElem?_getD, h2]

/-! ### Paths -/

theorem path_filter : ∀ (l : List (Option Fetched)) (a : W),
    (Core.Path a l ↔ Core.Path a ((l.filterMap id).map some)) ∧ Core.pathEnd a l = Core.pathEnd a ((l.filterMap id).map some)
  | [], _ => ⟨Iff.rfl, rfl⟩
  | none :: l, a => path_filter l a
  | some f :: l, a => ⟨and_congr_right fun _ => (path_filter l f.pn).1, (path_filter l f.pn).2⟩

theorem path_congr : ∀ (l l' : List Fetched) (a : W), l.map (fun f => (f.pc, f.pn)) = l'.map (fun f => (f.pc, f.pn)) →
    (Core.Path a (l.map some) ↔ Core.Path a (l'.map some)) ∧ Core.pathEnd a (l.map some) = Core.pathEnd a (l'.map some)
  | [], [], _, _ => ⟨Iff.rfl, rfl⟩
  | [], _ :: _, _, h => by cases h
  | _ :: _, [], _, h => by cases h
  | f :: l, f' :: l', a, h => by
    rw [List.map_cons, List.map_cons, List.cons.injEq, Prod.mk.injEq] at h
    obtain ⟨⟨h1, h2⟩, h3⟩ := h
    obtain ⟨i1, i2⟩ := path_congr l l' f.pn h3
    rw [List.map_cons, List.map_cons]
    refine ⟨?_, ?_⟩
    · show f.pc = a ∧ Core.Path f.pn _ ↔ f'.pc = a ∧ Core.Path f'.pn _
      rw [← h1, ← h2, i1]
    · show Core.pathEnd f.pn _ = Core.pathEnd f'.pn _
      rw [← h2, i2]

theorem pathEnd_last : ∀ (l : List Fetched) (a : W), Core.pathEnd a (l.map some) = (l.getLast?.map (·.pn)).getD a
  | [], _ => rfl
  | [f], _ => rfl
  | f :: g :: l, _ => by
    rw [List.getLast?_cons_cons]
    show Core.pathEnd f.pn ((g :: l).map some) = _
    rw [pathEnd_last (g :: l) f.pn]
    cases h : (g :: l).getLast? with
    | none => simp at h
    | some x => rfl

end Verif.FullCpuProofs

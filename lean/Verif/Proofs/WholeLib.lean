import Verif.Props.Spine
import Verif.Proofs.CoreFlow
import Verif.Spec.Whole
/-
Lemmas on the payload the composed stages carry along.
-/
namespace Verif.WholeProofs
open Verif.Spine Verif.Whole Verif.SpineProofs
open Verif.Core (W Sem Isa Item Fetched Task)
open Verif.Decode (DecInst decodeEntry)
open Verif.RenWindow (Entry toEntry entries)
open Verif.RobQueue (insts sig)
open Verif.DispatchGroup (waiting)

variable {n : Nat} {M : Type} {prog : W → Sem M}

/-- A slot is only valid if there is an instruction in it. -/
theorem decodeLoop_valid : ∀ (es : List (Option Bool)) (tags : List Nat) (run : BitVec n) (i : Nat) (sl : Idu.Slot n),
    (Idu.decodeLoop es tags run)[i]? = some sl → sl.valid = true → ∃ b, es[i]? = some (some b)
  | [], _, _, _, _, h, _ => by simp [Idu.decodeLoop] at h
  | none :: es, tags, run, 0, sl, h, hv => by simp [Idu.decodeLoop] at h; subst h; cases hv
  | some b :: es, tags, run, 0, sl, _, _ => ⟨b, rfl⟩
  | none :: es, tags, run, i + 1, sl, h, hv => by
    simp only [Idu.decodeLoop, List.getElem?_cons_succ] at h ⊢
    exact decodeLoop_valid es tags run i sl h hv
  | some false :: es, tags, run, i + 1, sl, h, hv => by
    simp only [Idu.decodeLoop, List.getElem?_cons_succ] at h ⊢
    exact decodeLoop_valid es tags run i sl h hv
  | some true :: es, t :: tags, run, i + 1, sl, h, hv => by
    simp only [Idu.decodeLoop, List.getElem?_cons_succ] at h ⊢
    exact decodeLoop_valid es tags _ i sl h hv
  | some true :: es, [], run, i + 1, sl, h, hv => by
    simp only [Idu.decodeLoop, List.getElem?_cons_succ, List.getElem?_map, Option.map_eq_some_iff] at h
    obtain ⟨_, _, rfl⟩ := h
    cases hv

/-- Where a numbered instruction comes from. -/
theorem number_at {α : Type} (dflt : α) : ∀ (ds : List (Option DecInst)) (sls : List (Idu.Slot n)) (as : List α) (m : Nat),
    as.length = ds.length → ∀ d : DInst n, some d ∈ Spine.number m ds sls →
    ∃ (i : Nat) (sl : Idu.Slot n) (x : Option DecInst) (a : α), sls[i]? = some sl ∧ sl.valid = true ∧ ds[i]? = some x ∧
      d.dec = x.getD {} ∧ as[i]? = some a ∧ m ≤ d.uid ∧
      ((sls.zip as).filterMap fun x => if x.1.valid then some x.2 else none).getD (d.uid - m) dflt = a
  | [], _, _, _, _, d, h => by simp [Spine.number] at h
  | _ :: _, [], _, _, _, d, h => by simp [Spine.number] at h
  | x :: ds, sl :: sls, [], m, hl, d, h => by simp at hl
  | x :: ds, sl :: sls, a :: as, m, hl, d, h => by
    simp only [List.length_cons, Nat.add_right_cancel_iff] at hl
    simp only [Spine.number] at h
    by_cases hv : sl.valid = true
    · rw [if_pos hv] at h
      rcases List.mem_cons.1 h with e | e
      · cases e
        refine ⟨0, sl, x, a, rfl, hv, rfl, rfl, rfl, Nat.le_refl _, ?_⟩
        simp [List.filterMap_cons, hv]
      · obtain ⟨i, sl', x', a', h1, h2, h3, h4, h5, h6, h7⟩ := number_at dflt ds sls as (m + 1) hl d e
        refine ⟨i + 1, sl', x', a', h1, h2, h3, h4, h5, by omega, ?_⟩
        rw [List.zip_cons_cons, List.filterMap_cons]
        simp only [hv, if_true]
        rw [show d.uid - m = (d.uid - (m + 1)) + 1 by omega, List.getD_cons_succ]
        exact h7
    · rw [if_neg hv] at h
      rcases List.mem_cons.1 h with e | e
      · cases e
      · obtain ⟨i, sl', x', a', h1, h2, h3, h4, h5, h6, h7⟩ := number_at dflt ds sls as m hl d e
        refine ⟨i + 1, sl', x', a', h1, h2, h3, h4, h5, h6, ?_⟩
        rw [List.zip_cons_cons, List.filterMap_cons]
        simp only [hv, Bool.false_eq_true, if_false]
        exact h7

section
variable {k : Cfg} {s : State n M} {c : Input n M}

/-- A decoded instruction is the program's at its address. -/
theorem fetched_agrees (hv : Valid prog k s c) {d : DInst n}
    (hd : some d ∈ Spine.number s.sp.next (decoded c.hw) (decSlots k s.sp c.hw)) :
    Agrees d.dec (prog (pay1 k s c d.uid).1) ∧ s.sp.next ≤ d.uid := by
  obtain ⟨i, sl, x, a, h1, h2, h3, h4, h5, h6, h7⟩ := number_at (0#32, 0#32) _ _ c.slots s.sp.next
    (by rw [hv.width, decoded, List.length_map]) d hd
  obtain ⟨b, hb⟩ := decodeLoop_valid _ _ _ _ _ h1 h2
  rw [List.getElem?_map, h3] at hb
  cases x with
  | none => simp at hb
  | some y =>
    have h3' := h3
    rw [decoded, List.getElem?_map] at h3'
    obtain ⟨o, ho, he⟩ := Option.map_eq_some_iff.1 h3'
    cases o with
    | none => cases he
    | some w =>
      refine ⟨?_, h6⟩
      have := hv.code i w.1 w.2 a ho h5
      have hy : decodeEntry w.1 w.2 = y := by simpa using he
      rw [hy] at this
      rw [h4]
      unfold pay1
      rw [if_neg (by omega)]
      have e : (fresh k s c).getD (d.uid - s.sp.next) (0#32, 0#32) = a := h7
      rw [e]; exact this

theorem agrees_inst {d : DInst n} {p : W} {q : W} (h : Agrees d.dec (prog p)) :
    Core.toInst prog ⟨p, q, d.brId⟩ = Spine.toInst d := by
  simp only [Core.toInst, Spine.toInst, h.destEn, h.areg, h.src1, h.src2, h.isBr]

theorem fetched_inst (hv : Valid prog k s c) :
    (fetched k s c).map (Option.map (Core.toInst prog)) =
      (Spine.number s.sp.next (decoded c.hw) (decSlots k s.sp c.hw)).map (Option.map Spine.toInst) := by
  unfold fetched
  rw [List.map_map]
  apply List.map_congr_left
  intro o ho
  cases o with
  | none => rfl
  | some d => exact congrArg some (agrees_inst (fetched_agrees hv ho).1)

theorem input_eq (hv : Valid prog k s c) : Core.toInput prog (cycOf k s c) = iR k s.sp c.hw := by
  simp only [Core.toInput, cycOf, iR, RenWindow.Input.mk.injEq, true_and]
  split
  · exact fetched_inst hv
  · rfl

end

/-- The sources of what rename hands over. -/
theorem sources_taken : ∀ (slots : List Ren.Slot) (lat : List (Option (DInst n))),
    sources slots lat = (taken slots lat).map (fun x => (x.1.uid, x.2.p1, x.2.p2))
  | [], _ => by simp [sources, taken]
  | _ :: _, [] => by simp [sources, taken]
  | sl :: r, d :: ds => by
    simp only [sources, taken, List.map_append, sources_taken r ds]
    congr 1
    cases d with
    | none => rfl
    | some d =>
      simp only [Option.bind_some]
      split <;> rfl

/-- The new tasks, in terms of what rename hands over. -/
theorem newTasks_taken (pay : Nat → W × W) : ∀ (slots : List Ren.Slot) (lat : List (Option (DInst n))),
    slots.map Ren.Slot.inst = lat.map (Option.map Spine.toInst) →
    Core.newTasks slots (lat.map (Option.map fun d => ⟨(pay d.uid).1, (pay d.uid).2, d.brId⟩)) =
      (taken slots lat).map (fun x => ⟨entOf x, (pay x.1.uid).1, (pay x.1.uid).2, x.2.p1, x.2.p2, false, 0#32, false⟩)
  | [], [], _ => by simp [Core.newTasks, taken]
  | [], _ :: _, h => by simp at h
  | _ :: _, [], h => by simp at h
  | sl :: r, d :: ds, h => by
    simp only [List.map_cons, List.cons.injEq] at h
    simp only [List.map_cons, Core.newTasks, taken, List.map_append, newTasks_taken pay r ds h.2]
    congr 1
    cases d with
    | none =>
      have : sl.inst = none := h.1
      simp only [Option.map_none, toEntry, this]; rfl
    | some d =>
      have hi : sl.inst = some (Spine.toInst d) := h.1
      simp only [Option.map_some, toEntry, hi, Option.bind_some]
      cases sl.valid
      · rfl
      · rfl

/-- The slots rename keeps. -/
theorem kept_lat (ready : Bool) (m : BitVec n) (pay pay' : Nat → W × W) : ∀ (slots : List Ren.Slot) (lat : List (Option (DInst n))),
    (∀ d, some d ∈ lat → pay' d.uid = pay d.uid) →
    Core.keptSlots ready slots (lat.map (Option.map fun d => ⟨(pay d.uid).1, (pay d.uid).2, d.brId⟩)) =
      (List.zipWith (fun sl d => if Ren.fires ready sl then none else d.map (Spine.scrub m)) slots lat).map
        (Option.map fun d => ⟨(pay' d.uid).1, (pay' d.uid).2, d.brId⟩)
  | [], _, _ => by simp [Core.keptSlots]
  | _ :: _, [], _ => by simp [Core.keptSlots]
  | sl :: r, d :: ds, h => by
    simp only [List.map_cons, Core.keptSlots, List.zipWith_cons_cons,
      kept_lat ready m pay pay' r ds (fun d hd => h d (List.mem_cons_of_mem _ hd))]
    congr 1
    split
    · rfl
    · cases d with
      | none => rfl
      | some d =>
        simp only [Option.map_some, Spine.scrub]
        rw [h d List.mem_cons_self]

end Verif.WholeProofs

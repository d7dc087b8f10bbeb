import Verif.Proofs.SpineKeep
/-
Every physical register number in the in-order back end is below the number of physical registers.
-/
namespace Verif.SchedProofs
open Verif.Spine Verif.SpineProofs
open Verif.RenWindow (Entry toEntry)
open Verif.DispatchGroup (waiting)

variable {n P : Nat}

structure BRegs (P : Nat) (R : Ren.Regs) : Prop where
  spec : ∀ a, R.spec a < P
  arch : ∀ a, R.arch a < P
  ck : ∀ t a, R.ck t a < P
  fl : ∀ i, R.fl i < P

def BSlot (P : Nat) (sl : Ren.Slot) : Prop := sl.dest < P ∧ sl.p1 < P ∧ sl.p2 < P ∧ sl.old < P

theorem alloc_bound (hP : 0 < P) {fl : Nat → Nat} (hf : ∀ i, fl i < P) : ∀ (l : List (Option Ren.Inst)) h c,
    ∀ x ∈ Ren.allocLoop P fl h c l, x.2 < P
  | [], _, _ => fun _ hx => by cases hx
  | none :: l, h, c => by
    intro x hx
    rcases List.mem_cons.1 hx with e | e
    · rw [e]; exact hP
    · exact alloc_bound hP hf l _ _ x e
  | some i :: l, h, c => by
    intro x hx
    rw [Ren.allocLoop] at hx
    split at hx
    · rcases List.mem_cons.1 hx with e | e
      · rw [e]; exact hf _
      · exact alloc_bound hP hf l _ _ x e
    · rcases List.mem_cons.1 hx with e | e
      · rw [e]; exact hP
      · exact alloc_bound hP hf l _ _ x e

theorem lookup_bound {spec : Nat → Nat} (hs : ∀ a, spec a < P) (prior : List (Option Ren.Inst × Nat)) (a : Nat)
    (hp : ∀ x ∈ prior, x.2 < P) : Ren.lookup spec prior a < P := by
  unfold Ren.lookup
  generalize hz : spec a = z
  have hz' : z < P := hz ▸ hs a
  clear hz
  induction prior generalizing z with
  | nil => exact hz'
  | cons x l ih =>
    rw [List.foldl_cons]
    refine ih (fun y hy => hp y (List.mem_cons_of_mem _ hy)) _ ?_
    have := hp x List.mem_cons_self
    split
    · exact hz'
    · split
      · exact hz'
      · split
        · exact hz'
        · split
          · exact this
          · exact hz'

theorem rename_bound (hP : 0 < P) {spec : Nat → Nat} (hs : ∀ a, spec a < P) : ∀ (is : List (Option Ren.Inst))
    (as : List (Bool × Nat)) (vs : List Bool) (prior : List (Option Ren.Inst × Nat)), (∀ x ∈ prior, x.2 < P) →
    (∀ x ∈ as, x.2 < P) → ∀ sl ∈ Ren.renameLoop spec prior is as vs, BSlot P sl
  | [], _, _, _, _, _ => fun _ h => by simp [Ren.renameLoop] at h
  | _ :: _, [], _, _, _, _ => fun _ h => by simp [Ren.renameLoop] at h
  | _ :: _, _ :: _, [], _, _, _ => fun _ h => by simp [Ren.renameLoop] at h
  | i :: is, (b, r) :: as, v :: vs, prior, hp, ha => by
    intro sl hsl
    rw [Ren.renameLoop] at hsl
    have hr : r < P := ha _ List.mem_cons_self
    rcases List.mem_cons.1 hsl with e | e
    · subst e
      refine ⟨hr, ?_, ?_, ?_⟩ <;> (cases i with
        | none => exact hP
        | some i => exact lookup_bound hs _ _ hp)
    · refine rename_bound hP hs is as vs _ ?_ (fun x hx => ha x (List.mem_cons_of_mem _ hx)) sl e
      intro x hx
      rcases List.mem_append.1 hx with hx | hx
      · exact hp x hx
      · rw [List.mem_singleton.1 hx]; exact hr

theorem group_bound (hP : 0 < P) {R : Ren.Regs} (h : BRegs P R) (l : List (Option Ren.Inst)) :
    ∀ sl ∈ Ren.renameGroup P R l, BSlot P sl :=
  rename_bound hP h.spec _ _ _ _ (fun _ hx => by cases hx) (alloc_bound hP h.fl _ _ _)

theorem upd_bound {f : Nat → Nat} (hf : ∀ a, f a < P) (i v : Nat) (hv : v < P) : ∀ a, Ring.upd f i v a < P := by
  intro a; unfold Ring.upd; split
  · exact hv
  · exact hf a

theorem fireOne_bound {N : Nat} {r : Bool} {R : Ren.Regs} {sl : Ren.Slot} (h : BRegs P R) (hs : BSlot P sl) :
    BRegs P (Ren.fireOne P N r R sl) := by
  unfold Ren.fireOne
  cases sl.inst with
  | none => exact h
  | some i =>
    simp only
    have h1 : BRegs P (if Ren.fires r sl && i.destEn then
        { R with ok := R.ok && decide (R.head ≠ R.tail), spec := Ring.upd R.spec i.areg sl.dest, head := Ring.inc P R.head }
      else R) := by
      split
      · exact ⟨upd_bound h.spec _ _ hs.1, h.arch, h.ck, h.fl⟩
      · exact h
    revert h1
    generalize (if Ren.fires r sl && i.destEn then
        { R with ok := R.ok && decide (R.head ≠ R.tail), spec := Ring.upd R.spec i.areg sl.dest, head := Ring.inc P R.head }
      else R) = R1
    intro h1
    split
    · refine ⟨h1.spec, h1.arch, ?_, h1.fl⟩
      intro t a
      show Ring.upd R1.ck i.brId R1.spec t a < P
      unfold Ring.upd; split
      · exact h1.spec a
      · exact h1.ck t a
    · exact h1

theorem commitOne_bound {b : Bool} {R : Ren.Regs} {c : Ren.Commit} (h : BRegs P R) (hp : c.preg < P) (ho : c.old < P) :
    BRegs P (Ren.commitOne P b R c) := by
  unfold Ren.commitOne
  split
  · exact ⟨h.spec, upd_bound h.arch _ _ hp, h.ck, upd_bound h.fl _ _ ho⟩
  · exact h

theorem fold_bound {α : Type} (f : Ren.Regs → α → Ren.Regs) : ∀ (l : List α) (R : Ren.Regs),
    (∀ x ∈ l, ∀ R, BRegs P R → BRegs P (f R x)) → BRegs P R → BRegs P (l.foldl f R)
  | [], _, _, h => h
  | x :: l, R, hx, h => fold_bound f l (f R x) (fun y hy => hx y (List.mem_cons_of_mem _ hy)) (hx x List.mem_cons_self R h)

theorem combFire_bound {A N : Nat} {R : Ren.Regs} {slots : List Ren.Slot} {r fl it : Bool} {m : Option Nat}
    {cs : List Ren.Commit} (h : BRegs P R) (hs : ∀ sl ∈ slots, BSlot P sl) (hc : ∀ c ∈ cs, c.preg < P ∧ c.old < P) :
    BRegs P (Ren.combFire P A N R slots r fl it m cs) := by
  unfold Ren.combFire
  simp only
  have h1 : BRegs P (cs.foldl (Ren.commitOne P it) (slots.foldl (Ren.fireOne P N r)
      { R with ok := R.ok && Ren.sanity P A R.head R.hc R.tail })) :=
    fold_bound _ _ _ (fun c hcm R hR => commitOne_bound hR (hc c hcm).1 (hc c hcm).2)
      (fold_bound _ _ _ (fun sl hsl R hR => fireOne_bound hR (hs sl hsl)) ⟨h.spec, h.arch, h.ck, h.fl⟩)
  revert h1
  generalize cs.foldl (Ren.commitOne P it) _ = R1
  intro h1
  unfold Ren.recover
  simp only
  cases fl with
  | true => exact ⟨h1.arch, h1.arch, h1.ck, h1.fl⟩
  | false =>
    cases m with
    | none => exact ⟨h1.spec, h1.arch, h1.ck, h1.fl⟩
    | some t => exact ⟨h.ck t, h1.arch, h1.ck, h1.fl⟩

/-- The register numbers of the stages. -/
structure Bound (k : Cfg) (s : St n) : Prop where
  regs : BRegs k.P s.regs
  info : ∀ m, (s.info m).preg < k.P ∧ (s.info m).old < k.P
  dis : ∀ u ∈ waiting s.dis, u.destPreg < k.P ∧ u.src1Preg < k.P ∧ u.src2Preg < k.P

theorem records_bound : ∀ (slots : List Ren.Slot) (lat : List (Option (DInst n))), (∀ sl ∈ slots, BSlot P sl) →
    ∀ x ∈ records slots lat, x.2.preg < P ∧ x.2.old < P
  | [], _, _ => fun _ hx => by simp [records] at hx
  | _ :: _, [], _ => fun _ hx => by simp [records] at hx
  | sl :: r, d :: ds, h => by
    intro x hx
    rw [records] at hx
    rcases List.mem_append.1 hx with e | e
    · cases d with
      | none => simp at e
      | some d =>
        simp only [Option.bind_some, Option.mem_toList, Option.map_eq_some_iff] at e
        obtain ⟨y, hy, rfl⟩ := e
        unfold toEntry at hy
        split at hy
        · cases hy
        · split at hy
          · cases hy; exact ⟨(h sl List.mem_cons_self).1, (h sl List.mem_cons_self).2.2.2⟩
          · cases hy
    · exact records_bound r ds (fun y hy => h y (List.mem_cons_of_mem _ hy)) x e

theorem renOut_bound : ∀ (slots : List Ren.Slot) (lat : List (Option (DInst n))), (∀ sl ∈ slots, BSlot P sl) →
    ∀ u, some u ∈ renOut slots lat → u.destPreg < P ∧ u.src1Preg < P ∧ u.src2Preg < P
  | [], _, _ => fun _ hx => by simp [renOut] at hx
  | _ :: _, [], _ => fun _ hx => by simp [renOut] at hx
  | sl :: r, d :: ds, h => by
    intro x hx
    rw [renOut] at hx
    rcases List.mem_cons.1 hx with e | e
    · cases d with
      | none => simp at e
      | some d =>
        simp only [Option.bind_some] at e
        split at e
        · cases e
          have := h sl List.mem_cons_self
          exact ⟨this.1, this.2.1, this.2.2.1⟩
        · cases e
    · exact renOut_bound r ds (fun y hy => h y (List.mem_cons_of_mem _ hy)) x e

theorem bound_init {k : Cfg} (hk : Good k) : Bound k (Spine.init n k) := by
  have h1 := hk.regs
  have h2 := hk.pregs
  refine ⟨⟨?_, ?_, ?_, ?_⟩, fun m => ⟨?_, ?_⟩, ?_⟩
  · intro a; show (if a < k.A then a else 0) < k.P; split <;> omega
  · intro a; show (if a < k.A then a else 0) < k.P; split <;> omega
  · intro _ _; show 0 < k.P; omega
  · intro a; show (if a < k.P - k.A then k.A + a else 0) < k.P; split <;> omega
  · show 0 < k.P; omega
  · show 0 < k.P; omega
  · intro u hu
    exfalso
    have hu : u ∈ (List.replicate k.dis.banks none).filterMap id := hu
    obtain ⟨o, ho, e⟩ := List.mem_filterMap.1 hu
    rw [(List.mem_replicate.1 ho).2] at e; cases e

theorem bound_step {k : Cfg} (hk : Good k) {s : St n} (h : Bound k s) (c : Cyc n) : Bound k (step k s c) := by
  have hP : 0 < k.P := by have := hk.regs; have := hk.pregs; omega
  have hsl : ∀ sl ∈ renSlots k s, BSlot k.P sl := group_bound hP h.regs _
  refine ⟨combFire_bound h.regs hsl ?_, ?_, ?_⟩
  · intro x hx
    obtain ⟨u, _, rfl⟩ := List.mem_map.1 hx
    exact h.info u.id
  · intro m
    show ((if (disOut k s c).ready then
        fun m => (((records (renSlots k s) s.lat).find? (fun x => x.1 == m)).map Prod.snd).getD (s.info m)
      else s.info) m).preg < _ ∧ ((if (disOut k s c).ready then
        fun m => (((records (renSlots k s) s.lat).find? (fun x => x.1 == m)).map Prod.snd).getD (s.info m)
      else s.info) m).old < _
    split
    · cases hf : (records (renSlots k s) s.lat).find? (fun x => x.1 == m) with
      | none => simp only [hf]; exact h.info m
      | some x => simp only [hf]; exact records_bound _ _ hsl x (List.mem_of_find?_eq_some hf)
    · exact h.info m
  · intro u hu
    have hu : u ∈ (Dispatch.step k.dis s.dis (disIn k s c)).slots.filterMap id := hu
    obtain ⟨o, ho, e⟩ := List.mem_filterMap.1 hu
    have e : o = some u := e
    subst e
    have hold : ∀ v, some v ∈ s.dis.slots → v.destPreg < k.P ∧ v.src1Preg < k.P ∧ v.src2Preg < k.P := fun v hv =>
      h.dis v (List.mem_filterMap.2 ⟨some v, hv, rfl⟩)
    unfold Dispatch.step at ho
    simp only at ho
    split at ho
    · obtain ⟨_, _, e⟩ := List.mem_map.1 ho; cases e
    · split at ho
      · obtain ⟨o2, ho2, e⟩ := List.mem_map.1 ho
        cases o2 with
        | none => cases e
        | some v =>
          cases e
          exact renOut_bound (renSlots k s) s.lat hsl v ho2
      · obtain ⟨x, hx, e⟩ := List.mem_map.1 ho
        split at e
        · cases e
        · cases hx1 : x.1 with
          | none => rw [hx1] at e; cases e
          | some v =>
            rw [hx1] at e; cases e
            have : x.1 ∈ s.dis.slots := (List.of_mem_zip (a := x.1) (b := x.2) hx).1
            rw [hx1] at this
            exact hold v this

theorem bound_reach {k : Cfg} (hk : Good k) {s : St n} (h : Reach k s) : Bound k s := by
  induction h with
  | init => exact bound_init hk
  | step c _ _ ih => exact bound_step hk ih c

end Verif.SchedProofs

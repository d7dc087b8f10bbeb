import Verif.Spec.Total
import Verif.Props.Ooo
import Verif.Props.Alive
/- The machine with values and the wake-up bus is both of its parts. -/
namespace Verif.TotalProofs
open Verif.Spine Verif.SpineProofs Verif.Core Verif.Total
open Verif.Waker (Alu)

variable {n : Nat} {M : Type} {prog : W → Sem M} {k : Waker.Cfg} {s s' : State n M} {c : Input n M}

theorem cycle_some (h : Total.cycle prog k s c = some s') : ∃ ws, Waker.wakes k (waker s) (wcyc c) = some ws ∧
    Waker.step k (waker s) (wcyc c) = some (waker s') ∧ Ooo.cycle prog k.sc s.o (heard c ws) = some s'.o := by
  unfold Total.cycle at h
  obtain ⟨ws, h1, h2⟩ := Option.bind_eq_some_iff.1 h
  obtain ⟨t, h3, rfl⟩ := Option.map_eq_some_iff.1 h2
  obtain ⟨ws', h4, h5, _⟩ := WakerProofs.step_some h3
  rw [h1, Option.some.injEq] at h4
  subst h4
  have hsp := (SchedProofs.step_some h5).2.1
  refine ⟨ws, h1, ?_, ?_⟩
  · rw [h3, Option.some.injEq]
    obtain ⟨⟨sp, iq, inst, ann, out⟩, mul, div, fp, since⟩ := t
    dsimp only at hsp
    subst hsp
    rfl
  · unfold Ooo.cycle
    have : Sched.step k.sc (Ooo.sched s.o) (Ooo.cyc (heard c ws)) = some t.sc := h5
    rw [this, Option.map_some]

theorem acts_waker (h : Acts prog k s s') : waker s' = waker s := by
  induction h with
  | refl => rfl
  | run _ _ ih => exact ih
  | write _ _ ih => exact ih

/-- What is announced belongs to an instruction with a destination. -/
def AnnDest (k : Waker.Cfg) (s : State n M) : Prop :=
  ∀ u ∈ robIds k.sc.sp s.o.w.sp, s.o.ann u = true → (s.o.inst u).dec.destEn = true

theorem honest (hk : Good k.sc.sp) (ha : Alu k) (hr : Waker.Reach k (waker s)) (hd : AnnDest k s) (hv : Total.Valid prog k s c) :
    ∀ j ∈ robIds k.sc.sp s.o.w.sp, s.o.ann j = true → s.o.w.done j = true ∨ s.o.w.wrote j = true := by
  intro j hj hann
  obtain ⟨_, _, bw, rw, Z, g, hl, I, W⟩ := WakerProofs.reach hk ha hr
  rcases ProgressProofs.dest_from (W.plain j hj) (hd j hj hann) with ht | ht | ⟨m, hm⟩
  · exact hv.memory j hj (.inl ht) hann
  · exact hv.memory j hj (.inr ht) hann
  · exact hv.units j hj m hm ((W.ann j hj m hm).2.1.1 hann)

theorem valid_ooo (hk : Good k.sc.sp) (ha : Alu k) (hr : Waker.Reach k (waker s)) (hd : AnnDest k s) (hv : Total.Valid prog k s c)
    {ws : List Nat} (hw : Waker.wakes k (waker s) (wcyc c) = some ws) : Ooo.Valid prog k.sc s.o (heard c ws) := by
  obtain ⟨_, hs, bw, rw, Z, g, hl, I, W⟩ := WakerProofs.reach hk ha hr
  exact ⟨hv.stages ws hw, WakerProofs.sched_valid hk hs hv.bus.base I W hw, hv.uses, honest hk ha hr hd hv⟩

theorem acts_ooo {s0 : Ooo.State n M} (h : Acts prog k s s') (hr : Ooo.Reach prog k.sc s0 s.o) : Ooo.Reach prog k.sc s0 s'.o := by
  induction h with
  | refl => exact hr
  | run _ hu ih => exact .run ih hu
  | write _ hu ih => exact .write ih hu

/-- One cycle of the joined machine is one of each. -/
theorem step {s0 : Ooo.State n M} (hk : Good k.sc.sp) (ha : Alu k) (h1 : Progress.Reach k (waker s)) (h2 : Ooo.Reach prog k.sc s0 s.o)
    (h3 : AnnDest k s) (hv : Total.Valid prog k s c) (hs : Total.cycle prog k s c = some s') :
    Progress.Reach k (waker s') ∧ Ooo.Reach prog k.sc s0 s'.o ∧ AnnDest k s' := by
  obtain ⟨ws, hw, e1, e2⟩ := cycle_some hs
  have hb := ProgressProofs.base h1
  refine ⟨.step _ h1 hv.bus e1, .cycle _ h2 (valid_ooo hk ha hb h3 hv hw) e2, ?_⟩
  obtain ⟨_, hr, bw, rw, Z, g, hl, I, W⟩ := WakerProofs.reach hk ha hb
  obtain ⟨ws', h4, h5, _⟩ := WakerProofs.step_some e1
  intro u _ hann
  have hann : (waker s').sc.ann u = true := hann
  rw [(SchedProofs.step_some h5).2.2.2.1 u, Bool.and_eq_true, decide_eq_true_eq] at hann
  have hi : (waker s').sc.inst u = (waker s).sc.inst u := SchedProofs.inst_old h5 hl hk hr hann.1
  show ((waker s').sc.inst u).dec.destEn = true
  rw [hi]
  rcases Bool.or_eq_true_iff.1 hann.2 with h | h
  · exact h3 u hann.1 h
  · exact (Bool.and_eq_true_iff.1 h).1

theorem reach (hk : Good k.sc.sp) (ha : Alu k) {prf : Nat → W} {pc : W} {m : M} (h : Total.Reach prog k (Total.init n k prf pc m) s) :
    Progress.Reach k (waker s) ∧ Ooo.Reach prog k.sc (Ooo.init n k.sc prf pc m) s.o ∧ AnnDest k s := by
  induction h with
  | init => exact ⟨.init, .init, fun u _ h => by cases h⟩
  | acts _ hacts ih =>
    have e := acts_waker hacts
    obtain ⟨h1, h2, h3⟩ := ih
    refine ⟨by rw [e]; exact h1, acts_ooo hacts h2, fun u hu h => ?_⟩
    have hu : u ∈ robIds k.sc.sp (waker _).sc.sp := hu
    have h : (waker _).sc.ann u = true := h
    show ((waker _).sc.inst u).dec.destEn = true
    rw [e] at hu h ⊢
    exact h3 u hu h
  | cycle c _ hv hs ih => exact step hk ha ih.1 ih.2.1 ih.2.2 hv hs

end Verif.TotalProofs

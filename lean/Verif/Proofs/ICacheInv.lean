import Verif.Proofs.ICacheGood
/-
The instruction cache: the invariant over cycles, and how long an answer takes.
-/
namespace Verif.ICache

variable {w w' : World} {s : Sys} {i : Cyc} {q : Option W32}

/-- The invariant. -/
structure Inv (w : World) (s : Sys) (q : Option W32) : Prop where
  ctl : Ctl s.c.r s.e
  dat : Dat w s
  req : q = outst s.c.r

theorem inv_init (w : World) : Inv w {} none := by
  refine ⟨⟨⟨?_, ?_, ?_, ?_, ?_, ?_, ?_⟩, ?_, ?_, ?_, ?_⟩, ⟨?_, ?_, ?_, ?_, ?_, ?_, ?_, ?_⟩, rfl⟩
  · exact fun _ => ⟨rfl, rfl⟩
  · intro h; cases h
  · intro h; cases h
  · intro h; cases h
  · intro u; simp
  · intro u h; cases h
  · exact fun _ => ⟨rfl, rfl⟩
  · intro u; rfl
  · intro u h; cases h
  · intro f h; cases h
  · intro f h; cases h
  · intro x y h; cases h
  · exact fun _ => rfl
  · intro _ h; cases h
  · intro h; rcases h with h | h <;> cases h
  · intro h; rcases h with h | h <;> cases h
  · intro h; cases h
  · intro f h; cases h
  · intro h; cases h

/-- The outputs of a cycle as the front end sees them. -/
theorem cycle_out (s : Sys) (i : Cyc) : (s.cycle i).2 = (call s.c (call1 s.e i)).2 := by
  unfold Sys.cycle
  dsimp only
  split <;> rfl

theorem cycle_one (s : Sys) (i : Cyc) (h : i.inval = false) :
    (s.cycle i).1 = ⟨(call s.c (call1 s.e i)).1, s.e.next i (call s.c (call1 s.e i)).2⟩ := by
  unfold Sys.cycle
  simp [h]

theorem cycle_two (s : Sys) (i : Cyc) (h : i.inval = true) :
    (s.cycle i).1 = ⟨(call (call s.c (call1 s.e i)).1 (call2 s.e i)).1, s.e.next i (call (call s.c (call1 s.e i)).1 (call2 s.e i)).2⟩ := by
  unfold Sys.cycle
  simp [h]

theorem call1_kill (e : Env) (i : Cyc) : (call1 e i).kill = (i.refetch || i.fenceI) := by
  simp [TopIn.kill, call1]

theorem world_eq (h : w'.xlat = w.xlat) (h' : w'.hit = w.hit ∧ w'.miss = w.miss ∧ w'.mem = w.mem) : w' = w := by
  cases w; cases w'
  simp only at h h'
  obtain ⟨a, b, c⟩ := h'
  subst h a b c
  rfl

theorem inv_step (h : Inv w s q) (hv : Valid w s i) (hw : w.Next w' i) :
    Inv w' (s.cycle i).1 (if i.kill || (s.cycle i).2.resp.isSome then none else q.or i.req) := by
  have hm := Mid.of_ctl h.ctl hv
  cases hiv : i.inval with
  | false =>
    rw [cycle_one s i hiv, cycle_out]
    cases hk : (call1 s.e i).kill with
    | true =>
      have hki : i.kill = true := by
        rw [call1_kill] at hk; simp only [Cyc.kill, hk, Bool.true_or]
      have hx := killed hm (same1 s.e i) hk
      have ho := killed_out hm (same1 s.e i) hk
      refine ⟨kill_ctl hm (same1 s.e i) hk, Dat.killed hx ho.1 ?_, ?_⟩
      · rw [ho.2.2.2.1]
        exact h.dat.tab.flushed _ hw.data
      · rw [hki]; exact (outst_none hx.reqV).symm
    | false =>
      have hk' := hk
      rw [call1_kill] at hk'
      have hki : i.kill = false := by
        simp only [Cyc.kill, hk', hiv, Bool.or_self]
      simp only [Bool.or_eq_false_iff] at hk'
      have e : w' = w := world_eq (hw.xlat hki) (hw.data hk'.2)
      subst e
      have hg := good h.dat h.ctl hv hk
      refine ⟨(went h.ctl hm (same1 s.e i) hk).ctl h.ctl, hg.dat, ?_⟩
      rw [hki, Bool.false_or, h.req]
      cases hr : (call s.c (call1 s.e i)).2.resp with
      | none => simp only [Option.isSome_none, Bool.false_eq_true, if_false]; exact (hg.quiet hr).symm
      | some x =>
        obtain ⟨pc, l⟩ := x
        simp only [Option.isSome_some, if_true]
        exact (outst_none (hg.resp pc l hr).2.2).symm
  | true =>
    obtain ⟨h1, h2⟩ := hv.inval hiv
    have hk : (call1 s.e i).kill = false := by rw [call1_kill, h1, h2]; rfl
    have hki : i.kill = true := by simp [Cyc.kill, hiv]
    rw [cycle_two s i hiv, hki, Bool.true_or, if_pos rfl]
    have hg := good h.dat h.ctl hv hk
    have hm1 := (went h.ctl hm (same1 s.e i) hk).mid h.ctl hm
    have hk2 : (call2 s.e i).kill = true := by simp [TopIn.kill, call2]
    have hx := killed hm1 (same2 s.e i) hk2
    have ho := killed_out hm1 (same2 s.e i) hk2
    refine ⟨kill_ctl hm1 (same2 s.e i) hk2, Dat.killed hx ho.1 ?_, (outst_none hx.reqV).symm⟩
    rw [ho.2.2.2.1]
    exact hg.dat.tab.flushed _ fun _ => hw.data h2

theorem reach_inv (h : Reach w s q) : Inv w s q := by
  induction h with
  | init w => exact inv_init w
  | step i _ hv hw ih => exact inv_step ih hv hw

/-- What is answered in a cycle. -/
theorem resp_ok (h : Inv w s q) (hv : Valid w s i) {pc : W32} {l : Option Line} (hr : (s.cycle i).2.resp = some (pc, l)) :
    i.refetch = false ∧ i.fenceI = false ∧ q.or i.req = some pc ∧ Answer w pc l := by
  rw [cycle_out] at hr
  have hm := Mid.of_ctl h.ctl hv
  cases hk : (call1 s.e i).kill with
  | true =>
    rw [(killed_out hm (same1 s.e i) hk).2.1] at hr; cases hr
  | false =>
    have hg := good h.dat h.ctl hv hk
    rw [call1_kill, Bool.or_eq_false_iff] at hk
    have := hg.resp pc l hr
    exact ⟨hk.1, hk.2, by rw [h.req]; exact this.1, this.2.1⟩

end Verif.ICache

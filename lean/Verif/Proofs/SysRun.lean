import Verif.Spec.SysRef
import Verif.Props.CoreFlow
/- What happened in the core is an execution of the instruction-set machine with exceptions and interrupts. -/
namespace Verif.SysRef
open Verif.Core Verif.Decode Verif.Isa Verif.Spec.ByteMem Verif.Csr Verif.Csr.Spec

variable {tl : Nat → Bool} {text : W → W} {P A N : Nat}

theorem sysRun_append (σ : Isa Ext) (l r : List Event) : sysRun tl text σ (l ++ r) = sysRun tl text (sysRun tl text σ l) r :=
  List.foldl_append

theorem allRight_append : ∀ (l r : List Event) (σ : Isa Ext), AllRight tl text σ (l ++ r) ↔
    AllRight tl text σ l ∧ AllRight tl text (sysRun tl text σ l) r
  | [], r, σ => by simp [AllRight, sysRun]
  | i :: l, r, σ => by
    show Right tl text σ i ∧ AllRight tl text _ (l ++ r) ↔ (Right tl text σ i ∧ AllRight tl text _ l) ∧ AllRight tl text (sysRun tl text (sysStep tl text σ i) l) r
    rw [allRight_append l r, and_assoc]

theorem covered_append : ∀ (l r : List Event) (q : Option Event) (σ : Isa Ext), Covered tl text q σ (l ++ r) → Covered tl text q σ l
  | [], _, _, _, _ => trivial
  | _ :: l, r, _, _, h => ⟨h.1, covered_append l r _ _ h.2⟩

theorem runs_split {M : Type} {prog : W → Sem M} {σ τ : Isa M} : ∀ (l r : List (Item M)), Runs prog σ (l ++ r) τ →
    ∃ υ, Runs prog σ l υ ∧ Runs prog υ r τ := by
  intro l
  induction l generalizing σ with
  | nil => intro r h; exact ⟨σ, .nil σ, h⟩
  | cons i l ih =>
    intro r h
    cases h with
    | inst h =>
      obtain ⟨υ, h1, h2⟩ := ih r h
      exact ⟨υ, .inst h1, h2⟩
    | jump p g h =>
      obtain ⟨υ, h1, h2⟩ := ih r h
      exact ⟨υ, .jump p g h1, h2⟩

/-- Each instruction of an executed list is the one at the pc. -/
theorem runs_pc {M : Type} {prog : W → Sem M} : ∀ (l : List Task) (σ τ : Isa M), Runs prog σ (l.map fun k => .inst k.pc) τ →
    ∀ pre k post, l = pre ++ k :: post → (after prog σ pre).pc = k.pc
  | [], _, _, _, pre, k, post, h => by cases pre <;> cases h
  | j :: l, σ, τ, h, pre, k, post, hl => by
    have hp : σ.pc = j.pc ∧ Runs prog (exec (prog σ.pc) σ) (l.map fun k => .inst k.pc) τ := by
      rw [List.map_cons] at h
      generalize hx : j.pc = x at h
      cases h with
      | inst h => exact ⟨rfl, h⟩
    cases pre with
    | nil =>
      cases hl
      exact hp.1
    | cons i pre =>
      cases hl
      rw [after_cons]
      exact runs_pc _ _ τ (hp.1 ▸ hp.2) pre k post rfl

theorem sysRun_insts : ∀ (l : List Task) (σ : Isa Ext), (∀ pre k post, l = pre ++ k :: post → (after (program tl text) σ pre).pc = k.pc) →
    sysRun tl text σ (l.map fun _ => .inst) = after (program tl text) σ l
  | [], _, _ => rfl
  | k :: l, σ, h => by
    have h0 : σ.pc = k.pc := h [] k l rfl
    show sysRun tl text (exec (program tl text σ.pc) σ) _ = after (program tl text) (exec (program tl text k.pc) σ) l
    rw [h0]
    exact sysRun_insts l _ fun pre j post hl => h (k :: pre) j post (by rw [hl]; rfl)

theorem allRight_insts : ∀ (l : List Task) (σ : Isa Ext), (∀ pre k post, l = pre ++ k :: post → (after (program tl text) σ pre).pc = k.pc) →
    (∀ pre k post, l = pre ++ k :: post → Right tl text (after (program tl text) σ pre) .inst) →
    AllRight tl text σ (l.map fun _ => .inst)
  | [], _, _, _ => trivial
  | k :: l, σ, h, hr => by
    have h0 : σ.pc = k.pc := h [] k l rfl
    refine ⟨hr [] k l rfl, ?_⟩
    show AllRight tl text (exec (program tl text σ.pc) σ) _
    rw [h0]
    exact allRight_insts l _ (fun pre j post hl => h (k :: pre) j post (by rw [hl]; rfl))
      (fun pre j post hl => hr (k :: pre) j post (by rw [hl]; rfl))

theorem program_wf (h32 : 32 ≤ A) : WfProg (program tl text) A := by
  intro p
  obtain ⟨-, -, h1, h2⟩ := Props.C08_src (text p)
  exact ⟨fun _ => Nat.lt_of_lt_of_le h1 h32, fun _ => Nat.lt_of_lt_of_le h2 h32⟩

/-- The core with its events is the core. -/
theorem sysReach_reach {s0 s : State Ext} {l : List Event} (h : SysReach tl text P A N s0 s l) :
    Core.Reach (program tl text) P A N s0 s := by
  induction h with
  | init => exact .init
  | run _ h1 h2 ih => exact .run ih h1 h2
  | write _ h1 h2 ih => exact .write ih h1 h2
  | quiet c _ v _ _ ih => exact .cycle c ih v
  | resume c _ _ _ v _ _ _ _ _ _ _ _ ih => exact .cycle c ih v
  | trap c _ _ _ _ _ v _ _ _ _ _ _ _ _ ih => exact .cycle c ih v
  | irq c _ _ _ v _ _ _ _ _ _ ih => exact .cycle c ih v

section
variable {w : Nat} {prf : Nat → W} {pc : W} {m : Ext} {s : State Ext} {l : List Event}

/-- What the tasks read is what the instruction-set machine has. -/
theorem fault_right (h32 : 32 ≤ A) (hAP : A ≤ P) (h : SysReach tl text P A N (State.init P A w prf pc m) s l)
    {pre post : List Task} {k : Task} (hs : s.tasks = pre ++ k :: post) (hd : ∀ j ∈ pre, j.done = true)
    (hpc : (after (program tl text) s.isa pre).pc = k.pc) :
    taskFault tl text s pre k = faultOf (text (after (program tl text) s.isa pre).pc) (after (program tl text) s.isa pre).pc
      (after (program tl text) s.isa pre).ext
      ((program tl text (after (program tl text) s.isa pre).pc).arg1 (after (program tl text) s.isa pre).regs)
      ((program tl text (after (program tl text) s.isa pre).pc).arg2 (after (program tl text) s.isa pre).regs) := by
  have hi := inv_reach (by omega) hAP (program_wf h32) (sysReach_reach h)
  obtain ⟨hv, hp1, hp2⟩ := operand hi hs
  have set : ∀ p, Settled pre p := fun p j hj _ hf _ => by rw [hd j hj] at hf; cases hf
  have wf := program_wf (tl := tl) (text := text) h32 k.pc
  unfold taskFault
  rw [hpc]
  congr 1
  · unfold Task.arg1 Sem.arg1
    by_cases u : (program tl text k.pc).use1 = true
    · rw [if_pos u, if_pos u, hp1]
      exact hv _ (wf.1 u) (set _)
    · rw [if_neg u, if_neg u]
  · unfold Task.arg2 Sem.arg2
    by_cases u : (program tl text k.pc).use2 = true
    · rw [if_pos u, if_pos u, hp2]
      exact hv _ (wf.2 u) (set _)
    · rw [if_neg u, if_neg u]

theorem retire_right (h32 : 32 ≤ A) (hAP : A ≤ P) (h : SysReach tl text P A N (State.init P A w prf pc m) s l) {c : Cyc Ext}
    (v : Valid (program tl text) P A N s c) (hc : Clean tl text s c) :
    sysRun tl text s.isa ((retired s c).map fun _ => .inst) = after (program tl text) s.isa (retired s c) ∧
    AllRight tl text s.isa ((retired s c).map fun _ => .inst) := by
  have hi := inv_reach (by omega) hAP (program_wf h32) (sysReach_reach h)
  obtain ⟨rest, h1, -, -, -, h5, -⟩ := inv_retire (by omega) hi v
  obtain ⟨υ, hu1, hu2⟩ := runs_split _ _ h5
  have : υ = s.isa := Props.C91_determined hu1 hi.runs
  subst this
  have hpc := runs_pc _ _ _ hu2
  refine ⟨sysRun_insts _ _ hpc, allRight_insts _ _ hpc fun pre k post hl => ?_⟩
  obtain ⟨c1, c2⟩ := hc pre k post hl
  refine ⟨c2, ?_⟩
  rw [fault_right h32 hAP h (pre := pre) (k := k) (post := post ++ rest) (by rw [h1, hl, List.append_assoc]; rfl)
    (fun j hj => (v.done j (by rw [hl]; exact List.mem_append_left _ hj)).1) (hpc pre k post hl)] at c1
  exact c1

theorem next_resume {x : Ext} {a b : W} {w pc : W} (h : (sysSem tl w pc).isBr = false) :
    (sysSem tl w pc).next x a b = resumePc w pc x := by
  show (if (sysSem tl w pc).isBr then _ else _) = _
  rw [h]
  rfl

/-- Where the core is in the instruction-set machine, and that everything that happened is right. -/
theorem sysReach_run (h32 : 32 ≤ A) (hAP : A ≤ P) (h : SysReach tl text P A N (State.init P A w prf pc m) s l) :
    s.isa = sysRun tl text ⟨pc, prf, m⟩ l ∧ AllRight tl text ⟨pc, prf, m⟩ l := by
  induction h with
  | init => exact ⟨rfl, trivial⟩
  | run _ _ _ ih => exact ih
  | write _ _ _ ih => exact ih
  | @quiet s l c h v hf hc ih =>
    obtain ⟨i1, i2⟩ := ih
    obtain ⟨r1, r2⟩ := retire_right h32 hAP h v hc
    rw [sysRun_append, allRight_append, ← i1]
    refine ⟨?_, i2, r2⟩
    rw [r1]
    show (if c.flush = true then _ else _) = _
    rw [if_neg (by rw [hf]; decide)]
  | @resume s l c ret k h v hf he hi hr hb hc ht hg ih =>
    obtain ⟨i1, i2⟩ := ih
    obtain ⟨r1, r2⟩ := retire_right h32 hAP h v hc
    rw [sysRun_append, allRight_append, ← i1]
    refine ⟨?_, i2, r2⟩
    rw [r1]
    show (if c.flush = true then (⟨c.target, (after (program tl text) s.isa (retired s c)).regs,
      c.g (after (program tl text) s.isa (retired s c)).ext⟩ : Isa Ext) else _) = _
    rw [if_pos hf, hg, ht]
    have hpc : (after (program tl text) s.isa (retired s c)).pc = resumePc (text k.pc) k.pc (after (program tl text) s.isa ret).ext := by
      rw [hr, after_append]
      exact next_resume (tl := tl) hb
    rw [← hpc]
    rfl
  | @trap s l c k post x v h hv hf he hi hs hx hq ht hg ih =>
    obtain ⟨i1, i2⟩ := ih
    have hI := inv_reach (by omega) hAP (program_wf h32) (sysReach_reach h)
    have hpc : s.isa.pc = k.pc := by
      obtain ⟨_, hl, -⟩ := hI.path
      rw [hs] at hl
      exact hl.1.symm
    have hret : retired s c = [] := by unfold retired; rw [he]; rfl
    have hr : Right tl text s.isa (.trap x v) := by
      refine ⟨hq, ?_⟩
      have := fault_right h32 hAP h (pre := []) hs (fun j hj => by cases hj) hpc
      rw [hx] at this
      exact this.symm
    rw [sysRun_append, allRight_append, ← i1]
    refine ⟨?_, i2, hr, trivial⟩
    show (if c.flush = true then (⟨c.target, (after (program tl text) s.isa (retired s c)).regs,
      c.g (after (program tl text) s.isa (retired s c)).ext⟩ : Isa Ext) else _) =
      ⟨trapPc (x.report s.isa.pc v) s.isa.ext, s.isa.regs, trapExt tl (x.report s.isa.pc v) s.isa.ext⟩
    rw [if_pos hf, hret, hg, ht, hpc]
    rfl
  | @irq s l c k post h hv hf hi hs hq ht hg ih =>
    obtain ⟨i1, i2⟩ := ih
    have hI := inv_reach (by omega) hAP (program_wf h32) (sysReach_reach h)
    have hpc : s.isa.pc = k.pc := by
      obtain ⟨_, hl, -⟩ := hI.path
      rw [hs] at hl
      exact hl.1.symm
    have hret : retired s c = [] := by unfold retired; rw [hi, Bool.or_true]; rfl
    rw [sysRun_append, allRight_append, ← i1]
    refine ⟨?_, i2, hq, trivial⟩
    show (if c.flush = true then (⟨c.target, (after (program tl text) s.isa (retired s c)).regs,
      c.g (after (program tl text) s.isa (retired s c)).ext⟩ : Isa Ext) else _) =
      ⟨trapPc (interruptAt s.isa.pc 0#32) s.isa.ext, s.isa.regs, trapExt tl (interruptAt s.isa.pc 0#32) s.isa.ext⟩
    rw [if_pos hf, hret, hg, ht, hpc]
    rfl
end

end Verif.SysRef

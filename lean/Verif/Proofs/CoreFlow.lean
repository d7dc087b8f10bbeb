import Verif.Spec.CoreFlow
import Verif.Proofs.RenSys
/- The core's invariant: the speculative values are those of the instruction-set machine run along the window. -/
namespace Verif.Core
open Verif.Ren Verif.RenWindow Verif.Ring Verif.Proofs.Ren

variable {M : Type} {prog : W → Sem M} {P A N : Nat}

/-- What is true of the window, given the map and the machine state before it. -/
def Ok (prog : W → Sem M) (prf : Nat → W) : (Nat → Nat) → Isa M → List Task → Prop
  | _, _, [] => True
  | m, σ, k :: r =>
    (k.e.destEn = (prog k.pc).destEn ∧ k.e.areg = (prog k.pc).areg) ∧
    (k.p1 = m (prog k.pc).src1 ∧ k.p2 = m (prog k.pc).src2) ∧
    ((k.done = true → k.act = (exec (prog k.pc) σ).pc) ∧
      (k.done = true ∨ k.wrote = true → k.e.destEn = true → prf k.e.preg = (exec (prog k.pc) σ).regs k.e.areg)) ∧
    Ok prog prf (apply m k.e) (exec (prog k.pc) σ) r

theorem after_cons (σ : Isa M) (k : Task) (l : List Task) : after prog σ (k :: l) = after prog (exec (prog k.pc) σ) l := rfl
theorem after_append (σ : Isa M) (l r : List Task) : after prog σ (l ++ r) = after prog (after prog σ l) r := by
  unfold after; rw [List.foldl_append]

theorem ok_append {prf : Nat → W} : ∀ (l r : List Task) (m : Nat → Nat) (σ : Isa M),
    Ok prog prf m σ (l ++ r) ↔ Ok prog prf m σ l ∧ Ok prog prf (applyAll m (l.map Task.e)) (after prog σ l) r
  | [], r, m, σ => by simp [Ok, applyAll, after]
  | k :: l, r, m, σ => by
    rw [List.cons_append, Ok, Ok, ok_append l r, List.map_cons, applyAll_cons, after_cons]
    constructor
    · rintro ⟨a, b, c, d, e⟩; exact ⟨⟨a, b, c, d⟩, e⟩
    · rintro ⟨⟨a, b, c, d⟩, e⟩; exact ⟨a, b, c, d, e⟩

theorem apply_survive (c : Nat → Bool) (m : Nat → Nat) (e : Entry) : apply m (survive c e) = apply m e := rfl

theorem ok_keepTag {prf : Nat → W} (c : Nat → Bool) : ∀ (l : List Task) (m : Nat → Nat) (σ : Isa M),
    Ok prog prf m σ l → Ok prog prf m σ (l.map (keepTag c))
  | [], _, _, _ => trivial
  | k :: r, m, σ, h => by
    obtain ⟨a, b, d, e⟩ := h
    exact ⟨a, b, d, ok_keepTag c r _ _ e⟩

/-- The register file matters only at the destinations of the window. -/
theorem ok_prf {prf prf' : Nat → W} : ∀ (l : List Task) (m : Nat → Nat) (σ : Isa M),
    (∀ k ∈ l, k.e.destEn = true → prf' k.e.preg = prf k.e.preg) → Ok prog prf m σ l → Ok prog prf' m σ l
  | [], _, _, _, _ => trivial
  | k :: r, m, σ, hp, h => by
    obtain ⟨a, b, d, e⟩ := h
    refine ⟨a, b, ⟨d.1, fun hd hk => ?_⟩, ok_prf r _ _ (fun j hj => hp j (List.mem_cons_of_mem _ hj)) e⟩
    rw [hp k List.mem_cons_self hk]; exact d.2 hd hk

/-- The map points to the right value unless the producer has not run. -/
theorem value_after {prf : Nat → W} : ∀ (l : List Task) (m : Nat → Nat) (σ : Isa M), Ok prog prf m σ l →
    ∀ a, (applyAll m (l.map Task.e) a = m a → prf (m a) = σ.regs a) → Settled l (applyAll m (l.map Task.e) a) →
    prf (applyAll m (l.map Task.e) a) = (after prog σ l).regs a
  | [], m, σ, _, a, h, _ => h rfl
  | k :: r, m, σ, hok, a, h, hs => by
    obtain ⟨⟨f1, f2⟩, _, d, e⟩ := hok
    rw [List.map_cons, applyAll_cons] at hs h ⊢
    rw [after_cons]
    have hs' : Settled r (applyAll (apply m k.e) (r.map Task.e) a) := fun j hj => hs j (List.mem_cons_of_mem _ hj)
    refine value_after r _ _ e a (fun hx => ?_) hs'
    by_cases hk : k.e.destEn = true ∧ a = k.e.areg
    · obtain ⟨hd, ha⟩ := hk
      have e1 : apply m k.e a = k.e.preg := by rw [apply, if_pos hd, ha, upd, if_pos rfl]
      have hdone : k.done = true ∨ k.wrote = true := by
        rcases hq : k.done with _ | _
        · rcases hw : k.wrote with _ | _
          · exact absurd (hx.trans e1).symm (hs k List.mem_cons_self hd hq hw)
          · exact .inr rfl
        · exact .inl rfl
      rw [e1, ha]
      exact d.2 hdone hd
    · have e1 : apply m k.e a = m a := by
        unfold apply
        by_cases hd : k.e.destEn = true
        · rw [if_pos hd, upd, if_neg (fun x => hk ⟨hd, x⟩)]
        · rw [if_neg hd]
      have e2 : (exec (prog k.pc) σ).regs a = σ.regs a := by
        unfold exec
        rw [← f1, ← f2]
        dsimp only
        by_cases hd : k.e.destEn = true
        · rw [if_pos hd, upd, if_neg (fun x => hk ⟨hd, x⟩)]
        · rw [if_neg hd]
      rw [e1, e2]; exact h (hx.trans e1)

/-- The window is a piece of the predicted path from `a` to `b`. -/
def Link : W → List Task → W → Prop
  | a, [], b => a = b
  | a, k :: r, b => k.pc = a ∧ Link k.pn r b

/-- Instructions that are neither branches nor serialising have the successor they were predicted to have. -/
def Plain (prog : W → Sem M) (pc pn : W) : Prop :=
  (prog pc).isBr = false → (prog pc).serial = false → ∀ m a b, (prog pc).next m a b = pn

structure Inv (prog : W → Sem M) (P A N : Nat) (σ0 : Isa M) (s : State M) : Prop where
  ren : SInv P A N s.ren
  win : s.ren.win = s.tasks.map Task.e
  insts : s.ren.insts = s.lat.map (Option.map (toInst prog))
  ok : Ok prog s.prf s.ren.regs.arch s.isa s.tasks
  regs : ∀ a, a < A → s.prf (s.ren.regs.arch a) = s.isa.regs a
  path : ∃ x, Link s.isa.pc s.tasks x ∧ Path x s.lat ∧ pathEnd x s.lat = s.expect
  plainT : ∀ k ∈ s.tasks, Plain prog k.pc k.pn
  plainL : ∀ f, some f ∈ s.lat → Plain prog f.pc f.pn
  tag : ∀ k ∈ s.tasks, ∀ t, k.e.tag = some t → (prog k.pc).isBr = true
  runs : Runs prog σ0 s.past s.isa

theorem link_append : ∀ (l r : List Task) (a b : W), Link a (l ++ r) b ↔ ∃ x, Link a l x ∧ Link x r b
  | [], r, a, b => by simp [Link]
  | k :: l, r, a, b => by
    rw [List.cons_append, Link, link_append l r]
    constructor
    · rintro ⟨h, x, h1, h2⟩; exact ⟨x, ⟨h, h1⟩, h2⟩
    · rintro ⟨x, ⟨h, h1⟩, h2⟩; exact ⟨h, x, h1, h2⟩

theorem link_keepTag (c : Nat → Bool) : ∀ (l : List Task) (a b : W), Link a l b → Link a (l.map (keepTag c)) b
  | [], _, _, h => h
  | _ :: r, _, b, h => ⟨h.1, link_keepTag c r _ b h.2⟩

theorem runs_append {σ τ υ : Isa M} {l r : List (Item M)} (h1 : Runs prog σ l τ) (h2 : Runs prog τ r υ) :
    Runs prog σ (l ++ r) υ := by
  induction h1 with
  | nil => exact h2
  | inst _ ih => exact .inst (ih h2)
  | jump p g _ ih => exact .jump p g (ih h2)

/-- Retiring a piece of the path that has run, whose instructions found the successor of the path (the last one may
serialise instead), is executing it. -/
theorem runs_retire : ∀ (l : List Task) (prf : Nat → W) (m : Nat → Nat) (σ : Isa M) (x : W), Ok prog prf m σ l → Link σ.pc l x →
    (∀ k ∈ l, k.done = true ∧ ((prog k.pc).isBr = true → k.act = k.pn)) → (∀ k ∈ l, Plain prog k.pc k.pn) →
    (∀ pre k post, l = pre ++ k :: post → (prog k.pc).serial = true → post = []) →
    Runs prog σ (l.map (fun k => .inst k.pc)) (after prog σ l) ∧
      ((∀ k ∈ l, (prog k.pc).serial = false) → (after prog σ l).pc = x)
  | [], _, _, σ, x, _, hl, _, _, _ => ⟨.nil σ, fun _ => hl⟩
  | k :: r, prf, m, σ, x, hok, hl, hd, hp, hs => by
    obtain ⟨_, _, d, e⟩ := hok
    obtain ⟨l1, l2⟩ := hl
    obtain ⟨dk, bk⟩ := hd k List.mem_cons_self
    have act := d.1 dk
    have step : (r ≠ [] ∨ (prog k.pc).serial = false) → (exec (prog k.pc) σ).pc = k.pn := by
      intro hr
      have ser : (prog k.pc).serial = false := by
        rcases hq : (prog k.pc).serial with _ | _
        · rfl
        · exact hr.elim (fun h => absurd (hs [] k r rfl hq) h) (fun h => absurd (hq.symm.trans h) nofun)
      by_cases hb : (prog k.pc).isBr = true
      · rw [← act]; exact bk hb
      · exact hp k List.mem_cons_self (by simpa using hb) ser _ _ _
    rw [List.map_cons, after_cons]
    have hhead : ∀ {l τ}, Runs prog (exec (prog k.pc) σ) l τ → Runs prog σ (.inst k.pc :: l) τ := by
      intro l τ h; rw [l1] at h ⊢; exact .inst h
    cases r with
    | nil =>
      refine ⟨hhead (.nil _), fun hser => ?_⟩
      rw [show x = k.pn from l2.symm]
      exact step (.inr (hser k List.mem_cons_self))
    | cons j r =>
      have hpc := step (.inl (List.cons_ne_nil j r))
      obtain ⟨a, b⟩ := runs_retire (j :: r) prf _ _ x e (by rw [hpc]; exact l2) (fun i hi => hd i (List.mem_cons_of_mem _ hi))
        (fun i hi => hp i (List.mem_cons_of_mem _ hi)) (fun pre i post hq => hs (k :: pre) i post (by rw [hq]; rfl))
      exact ⟨hhead a, fun h => b fun i hi => h i (List.mem_cons_of_mem _ hi)⟩

/-- Architectural and in-flight physical registers are all different. -/
theorem distinct (hA : 0 < A) {s : RenWindow.Sys} (h : SInv P A N s) :
    ((List.range A).map s.regs.arch ++ pregs s.win).Nodup := by
  have hp := h.regs.perm
  rw [ring_split hA h.regs, ← List.append_assoc] at hp
  exact (List.nodup_append.1 (hp.nodup_iff.2 List.nodup_range)).1

theorem mem_pregs {l : List Task} {k : Task} (h : k ∈ l) (hd : k.e.destEn = true) : k.e.preg ∈ pregs (l.map Task.e) := by
  unfold pregs
  exact List.mem_map.2 ⟨k.e, List.mem_filter.2 ⟨List.mem_map.2 ⟨k, h, rfl⟩, hd⟩, rfl⟩

/-- The operand of a task whose producer has run is the register of the instruction-set machine. -/
theorem operand {s : State M} {σ0 : Isa M} (h : Inv prog P A N σ0 s) {pre post : List Task} {k : Task}
    (hs : s.tasks = pre ++ k :: post) :
    (∀ a, a < A → Settled pre (applyAll s.ren.regs.arch (pre.map Task.e) a) →
      s.prf (applyAll s.ren.regs.arch (pre.map Task.e) a) = (after prog s.isa pre).regs a) ∧
    k.p1 = applyAll s.ren.regs.arch (pre.map Task.e) (prog k.pc).src1 ∧
    k.p2 = applyAll s.ren.regs.arch (pre.map Task.e) (prog k.pc).src2 := by
  have hok := h.ok
  rw [hs, ok_append] at hok
  refine ⟨fun a ha hset => value_after pre _ _ hok.1 a (fun _ => h.regs a ha) hset, hok.2.2.1.1, hok.2.2.1.2⟩

/-- A task gets something done: its successor, and its result in its register. -/
theorem inv_put (hA : 0 < A) {s : State M} {σ0 : Isa M} (h : Inv prog P A N σ0 s)
    {pre post : List Task} {k k' : Task} (hs : s.tasks = pre ++ k :: post) {prf' : Nat → W}
    (hk : k'.e = k.e ∧ k'.pc = k.pc ∧ k'.pn = k.pn ∧ k'.p1 = k.p1 ∧ k'.p2 = k.p2)
    (hact : k'.done = true → k'.act = (exec (prog k.pc) (after prog s.isa pre)).pc)
    (hval : k'.done = true ∨ k'.wrote = true → k.e.destEn = true →
      prf' k.e.preg = (exec (prog k.pc) (after prog s.isa pre)).regs k.e.areg)
    (frame : ∀ p, (k.e.destEn = true → p ≠ k.e.preg) → prf' p = s.prf p) :
    Inv prog P A N σ0 { s with tasks := pre ++ k' :: post, prf := prf' } := by
  obtain ⟨ke, kpc, kpn, kp1, kp2⟩ := hk
  have hok := h.ok
  rw [hs, ok_append] at hok
  obtain ⟨ok1, f, q, _, ok2⟩ := hok
  have hnd := distinct hA h.ren
  rw [h.win, hs, List.map_append, List.map_cons, pregs_append, pregs_cons] at hnd
  -- the register written belongs to nobody else
  have other : ∀ p, k.e.destEn = true → p ∈ (List.range A).map s.ren.regs.arch ++ (pregs (pre.map Task.e) ++ pregs (post.map Task.e)) →
      p ≠ k.e.preg := by
    intro p hd hp hx
    subst hx
    rw [if_pos hd] at hnd
    have := hnd
    rw [show (List.range A).map s.ren.regs.arch ++ (pregs (pre.map Task.e) ++ ([k.e.preg] ++ pregs (post.map Task.e))) =
      ((List.range A).map s.ren.regs.arch ++ pregs (pre.map Task.e)) ++ k.e.preg :: pregs (post.map Task.e) by simp] at this
    have h2 := List.nodup_append.1 this
    rw [← List.append_assoc] at hp
    rcases List.mem_append.1 hp with hp | hp
    · exact h2.2.2 _ hp _ List.mem_cons_self rfl
    · exact (List.nodup_cons.1 h2.2.1).1 hp
  have mem : ∀ j ∈ pre ++ k' :: post, ∃ i ∈ s.tasks, j.e = i.e ∧ j.pc = i.pc ∧ j.pn = i.pn := by
    intro j hj
    rw [hs]
    rcases List.mem_append.1 hj with hj | hj
    · exact ⟨j, List.mem_append_left _ hj, rfl, rfl, rfl⟩
    · rcases List.mem_cons.1 hj with rfl | hj
      · exact ⟨k, List.mem_append_right _ List.mem_cons_self, ke, kpc, kpn⟩
      · exact ⟨j, List.mem_append_right _ (List.mem_cons_of_mem _ hj), rfl, rfl, rfl⟩
  refine ⟨h.ren, ?_, h.insts, ?_, ?_, ?_, ?_, h.plainL, ?_, h.runs⟩
  · show s.ren.win = (pre ++ _ :: post).map Task.e
    rw [h.win, hs, List.map_append, List.map_append, List.map_cons, List.map_cons, ke]
  · show Ok prog _ s.ren.regs.arch s.isa (pre ++ _ :: post)
    rw [ok_append, Ok, ke, kpc, kp1, kp2]
    refine ⟨ok_prf pre _ _ (fun j hj hd => frame _ fun hk => other _ hk ?_) ok1, f, q, ⟨hact, hval⟩,
      ok_prf post _ _ (fun j hj hd => frame _ fun hk => other _ hk ?_) ok2⟩
    · exact List.mem_append_right _ (List.mem_append_left _ (mem_pregs hj hd))
    · exact List.mem_append_right _ (List.mem_append_right _ (mem_pregs hj hd))
  · intro a ha
    show prf' (s.ren.regs.arch a) = s.isa.regs a
    rw [frame _ fun hk => other _ hk (List.mem_append_left _ (List.mem_map.2 ⟨a, List.mem_range.2 ha, rfl⟩))]
    exact h.regs a ha
  · obtain ⟨x, l, r⟩ := h.path
    refine ⟨x, ?_, r⟩
    show Link s.isa.pc (pre ++ _ :: post) x
    rw [hs] at l
    obtain ⟨y, l1, l2⟩ := (link_append _ _ _ _).1 l
    refine (link_append _ _ _ _).2 ⟨y, l1, ?_⟩
    rw [Link, kpc, kpn]; exact l2
  · intro j hj
    obtain ⟨i, hi, _, e2, e3⟩ := mem j hj
    rw [e2, e3]; exact h.plainT i hi
  · intro j hj t ht
    obtain ⟨i, hi, e1, e2, _⟩ := mem j hj
    rw [e2]; exact h.tag i hi t (e1 ▸ ht)

/-- A settled operand is the register of the instruction-set machine. -/
theorem arg_one (wf : WfProg prog A) {s : State M} {σ0 : Isa M} (h : Inv prog P A N σ0 s) {pre post : List Task} {k : Task}
    (hs : s.tasks = pre ++ k :: post) (hc : (prog k.pc).use1 = true → Settled pre k.p1) :
    k.arg1 prog s.prf = (prog k.pc).arg1 (after prog s.isa pre).regs := by
  obtain ⟨hv, hp1, _⟩ := operand h hs
  unfold Task.arg1 Sem.arg1
  by_cases u : (prog k.pc).use1 = true
  · rw [if_pos u, if_pos u, hp1]
    exact hv _ ((wf k.pc).1 u) (by rw [← hp1]; exact hc u)
  · rw [if_neg u, if_neg u]

theorem arg_two (wf : WfProg prog A) {s : State M} {σ0 : Isa M} (h : Inv prog P A N σ0 s) {pre post : List Task} {k : Task}
    (hs : s.tasks = pre ++ k :: post) (hc : (prog k.pc).use2 = true → Settled pre k.p2) :
    k.arg2 prog s.prf = (prog k.pc).arg2 (after prog s.isa pre).regs := by
  obtain ⟨hv, _, hp2⟩ := operand h hs
  unfold Task.arg2 Sem.arg2
  by_cases u : (prog k.pc).use2 = true
  · rw [if_pos u, if_pos u, hp2]
    exact hv _ ((wf k.pc).2 u) (by rw [← hp2]; exact hc u)
  · rw [if_neg u, if_neg u]

/-- The result of a task, written in its register, is the instruction-set machine's. -/
theorem put_value {s : State M} {σ0 : Isa M} (h : Inv prog P A N σ0 s) {pre post : List Task} {k : Task}
    (hs : s.tasks = pre ++ k :: post) {v : W} (hd : k.e.destEn = true)
    (hv : v = (prog k.pc).value (after prog s.isa pre).ext ((prog k.pc).arg1 (after prog s.isa pre).regs)
      ((prog k.pc).arg2 (after prog s.isa pre).regs)) :
    (if k.e.destEn then upd s.prf k.e.preg v else s.prf) k.e.preg = (exec (prog k.pc) (after prog s.isa pre)).regs k.e.areg := by
  have hok := h.ok
  rw [hs, ok_append] at hok
  obtain ⟨_, ⟨f1, f2⟩, _⟩ := hok
  rw [if_pos hd, upd, if_pos rfl]
  unfold exec
  dsimp only
  rw [if_pos (by rw [← f1]; exact hd), upd, if_pos f2, hv]

theorem put_frame {k : Task} {prf : Nat → W} {v : W} (p : Nat) (hp : k.e.destEn = true → p ≠ k.e.preg) :
    (if k.e.destEn then upd prf k.e.preg v else prf) p = prf p := by
  by_cases hd : k.e.destEn = true
  · rw [if_pos hd, upd, if_neg (hp hd)]
  · rw [if_neg hd]

theorem inv_finish (hA : 0 < A) (wf : WfProg prog A) {s : State M} {σ0 : Isa M} (h : Inv prog P A N σ0 s)
    {pre post : List Task} {k : Task} (hs : s.tasks = pre ++ k :: post) (hc : CanRun prog pre k) :
    Inv prog P A N σ0 (finish prog s pre k post) := by
  have a1 := arg_one wf h hs hc.one
  have a2 := arg_two wf h hs hc.two
  refine inv_put hA h hs ⟨rfl, rfl, rfl, rfl, rfl⟩ (fun _ => ?_) (fun _ hd => put_value h hs hd ?_) fun p hp => put_frame p hp
  · show (prog k.pc).next _ (k.arg1 prog s.prf) (k.arg2 prog s.prf) = _
    rw [a1, a2]; rfl
  · rw [a1, a2]

theorem write_value (wf : WfProg prog A) {s : State M} {σ0 : Isa M} (h : Inv prog P A N σ0 s)
    {pre post : List Task} {k : Task} (hs : s.tasks = pre ++ k :: post) (hc : CanWrite prog pre k) :
    (prog k.pc).value (after prog s.isa pre).ext (k.arg1 prog s.prf) (k.arg2 prog s.prf) =
      (prog k.pc).value (after prog s.isa pre).ext ((prog k.pc).arg1 (after prog s.isa pre).regs)
        ((prog k.pc).arg2 (after prog s.isa pre).regs) := by
  have e1 : ∀ b, (prog k.pc).value (after prog s.isa pre).ext (k.arg1 prog s.prf) b =
      (prog k.pc).value (after prog s.isa pre).ext ((prog k.pc).arg1 (after prog s.isa pre).regs) b := by
    intro b
    by_cases u : (prog k.pc).use1 = true
    · rcases hc.one u with h1 | h1
      · rw [arg_one wf h hs fun _ => h1]
      · exact h1 _ _ _ _
    · rw [arg_one wf h hs fun hu => absurd hu u]
  rw [e1]
  by_cases u : (prog k.pc).use2 = true
  · rcases hc.two u with h1 | h1
    · rw [arg_two wf h hs fun _ => h1]
    · exact h1 _ _ _ _
  · rw [arg_two wf h hs fun hu => absurd hu u]

theorem inv_write (hA : 0 < A) (wf : WfProg prog A) {s : State M} {σ0 : Isa M} (h : Inv prog P A N σ0 s)
    {pre post : List Task} {k : Task} (hs : s.tasks = pre ++ k :: post) (hc : CanWrite prog pre k) :
    Inv prog P A N σ0 (write prog s pre k post) := by
  refine inv_put hA h hs ⟨rfl, rfl, rfl, rfl, rfl⟩ (fun hd => ?_) (fun _ hd => put_value h hs hd (write_value wf h hs hc))
    fun p hp => put_frame p hp
  have : k.done = true := hd
  rw [hc.fresh] at this; cases this

/-! ### A group leaving rename -/

/-- The slots that fire come before those that do not. -/
def Prefix : List Slot → Prop
  | [] => True
  | sl :: r => (sl.inst.isSome = true → sl.valid = false → ∀ x ∈ r, x.valid = false) ∧ (sl.inst = none → sl.valid = false) ∧ Prefix r

theorem prefix_quiet : ∀ (l : List Slot), (∀ sl ∈ l, sl.valid = false) → Prefix l
  | [], _ => trivial
  | sl :: r, h => ⟨fun _ _ x hx => h x (List.mem_cons_of_mem _ hx), fun _ => h sl List.mem_cons_self,
      prefix_quiet r fun x hx => h x (List.mem_cons_of_mem _ hx)⟩

theorem prefix_rename (spec : Nat → Nat) : ∀ (is : List (Option Inst)) (prior : List (Option Inst × Nat)) (as : List (Bool × Nat))
    (st : Bool), Prefix (renameLoop spec prior is as (validLoop st is as))
  | [], _, _, _ => by simp [renameLoop, Prefix]
  | _ :: _, _, [], _ => by simp [renameLoop, Prefix]
  | none :: is, prior, (b, r) :: as, st => by
    rw [validLoop, renameLoop]
    exact ⟨fun h => by simp at h, fun _ => rfl, prefix_rename spec is _ as st⟩
  | some i :: is, prior, (b, r) :: as, st => by
    have quiet : ∀ pr, ∀ x ∈ renameLoop spec pr is as (validLoop true is as), x.valid = false :=
      fun pr => renameLoop_quiet spec is pr as _ (validLoop_stall is as)
    rw [validLoop]
    by_cases h1 : (i.destEn && !st) = true
    · rw [if_pos h1, renameLoop]
      refine ⟨fun _ hv x hx => ?_, fun h => by simp at h, prefix_rename spec is _ as _⟩
      have : b = false := hv
      subst this
      exact quiet _ x hx
    · rw [if_neg h1]
      by_cases h2 : (!i.destEn) = true
      · rw [if_pos h2, renameLoop]
        refine ⟨fun _ hv x hx => ?_, fun h => by simp at h, prefix_rename spec is _ as _⟩
        have : st = true := by simpa using hv
        subst this
        exact quiet _ x hx
      · rw [if_neg h2, renameLoop]
        refine ⟨fun _ hv x hx => ?_, fun h => by simp at h, prefix_rename spec is _ as _⟩
        have : st = true := by cases st <;> simp_all
        subst this
        exact quiet _ x hx

theorem new_none (sl : Slot) (r : List Slot) (x : Option Fetched) (xs : List (Option Fetched)) (h : toEntry sl = none) :
    newTasks (sl :: r) (x :: xs) = newTasks r xs := by
  unfold newTasks; rw [h]; rw [newTasks.eq_def]; rfl

theorem new_some (sl : Slot) (r : List Slot) (f : Fetched) (xs : List (Option Fetched)) (e : Entry) (h : toEntry sl = some e) :
    newTasks (sl :: r) (some f :: xs) = ⟨e, f.pc, f.pn, sl.p1, sl.p2, false, 0#32, false⟩ :: newTasks r xs := by
  unfold newTasks; rw [h]; rw [newTasks.eq_def]; rfl

theorem new_e : ∀ (slots : List Slot) (lat : List (Option Fetched)), slots.map Slot.inst = lat.map (Option.map (toInst prog)) →
    (newTasks slots lat).map Task.e = entries slots
  | [], [], _ => rfl
  | [], _ :: _, h => by simp at h
  | _ :: _, [], h => by simp at h
  | sl :: r, x :: xs, h => by
    rw [List.map_cons, List.map_cons, List.cons.injEq] at h
    rw [entries_cons]
    cases he : toEntry sl with
    | none => rw [new_none _ _ _ _ he, new_e r xs h.2]; rfl
    | some e =>
      cases x with
      | none =>
        have : toEntry sl = none := by rw [toEntry, h.1]; rfl
        rw [this] at he; simp at he
      | some f => rw [new_some _ _ _ _ _ he, List.map_cons, new_e r xs h.2]; rfl

theorem new_ok {prf : Nat → W} {fl : Nat → Nat} : ∀ (slots : List Slot) (lat : List (Option Fetched)) (m : Nat → Nat) (hh c : Nat) (σ : Isa M),
    slots.map Slot.inst = lat.map (Option.map (toInst prog)) → Good P A N fl m hh c slots → Ok prog prf m σ (newTasks slots lat)
  | [], _, _, _, _, _, _, _ => by simp [newTasks, Ok]
  | _ :: _, [], _, _, _, _, h, _ => by simp at h
  | sl :: r, x :: xs, m, hh, c, σ, h, hg => by
    rw [List.map_cons, List.map_cons, List.cons.injEq] at h
    cases he : toEntry sl with
    | none =>
      rw [new_none _ _ _ _ he]
      have g2 := hg.2
      rw [he] at g2
      exact new_ok r xs _ _ _ σ h.2 g2
    | some e =>
      cases x with
      | none =>
        have : toEntry sl = none := by rw [toEntry, h.1]; rfl
        rw [this] at he; simp at he
      | some f =>
        rw [new_some _ _ _ _ _ he]
        have g2 := hg.2
        rw [he] at g2
        have hi : sl.inst = some (toInst prog f) := h.1
        have hv : sl.valid = true := by
          rcases hq : sl.valid with _ | _
          · rw [toEntry, hi] at he; simp [hq] at he
          · rfl
        obtain ⟨i, hi', _, p1, p2, _⟩ := hg.1 hv
        rw [hi] at hi'
        have hii : toInst prog f = i := Option.some.inj hi'
        rw [toEntry, hi] at he
        simp only [hv, if_true, Option.some.injEq] at he
        refine ⟨?_, ⟨?_, ?_⟩, ⟨fun h => by simp at h, fun h => by simp at h⟩, new_ok r xs _ _ _ _ h.2 g2⟩
        · rw [← he]; exact ⟨rfl, rfl⟩
        · rw [← hii] at p1; exact p1
        · rw [← hii] at p2; exact p2

/-- The part of the path that leaves rename and the part that stays. -/
theorem new_path : ∀ (slots : List Slot) (lat : List (Option Fetched)) (x : W),
    slots.map Slot.inst = lat.map (Option.map (toInst prog)) → Prefix slots → Path x lat →
    ∃ y, Link x (newTasks slots lat) y ∧ Path y (keptSlots true slots lat) ∧ pathEnd y (keptSlots true slots lat) = pathEnd x lat
  | [], [], x, _, _, _ => ⟨x, rfl, trivial, rfl⟩
  | [], _ :: _, _, h, _, _ => by simp at h
  | _ :: _, [], _, h, _, _ => by simp at h
  | sl :: r, o :: xs, x, h, hp, hl => by
    rw [List.map_cons, List.map_cons, List.cons.injEq] at h
    obtain ⟨p1, p2, p3⟩ := hp
    rw [keptSlots]
    cases o with
    | none =>
      have hv : sl.valid = false := p2 h.1
      have : toEntry sl = none := by rw [toEntry, h.1]; rfl
      rw [new_none _ _ _ _ this, fires, hv]
      exact new_path r xs x h.2 p3 hl
    | some f =>
      have hi : sl.inst = some (toInst prog f) := h.1
      obtain ⟨l1, l2⟩ := hl
      cases hv : sl.valid with
      | true =>
        have : ∃ e, toEntry sl = some e := by rw [toEntry, hi]; simp [hv]
        obtain ⟨e, he⟩ := this
        rw [new_some _ _ _ _ _ he, fires, hv]
        obtain ⟨y, a, b, c⟩ := new_path r xs f.pn h.2 p3 l2
        exact ⟨y, ⟨l1, a⟩, b, c⟩
      | false =>
        have he : toEntry sl = none := by rw [toEntry, hi]; simp [hv]
        rw [new_none _ _ _ _ he, fires, hv]
        have q := p1 (by rw [hi]; rfl) hv
        obtain ⟨e1, e2⟩ := quiet_path r xs h.2 q
        rw [e1, e2]
        exact ⟨x, rfl, ⟨l1, l2⟩, rfl⟩
where
  quiet_path : ∀ (slots : List Slot) (lat : List (Option Fetched)), slots.map Slot.inst = lat.map (Option.map (toInst prog)) →
      (∀ sl ∈ slots, sl.valid = false) → newTasks slots lat = [] ∧ keptSlots true slots lat = lat
    | [], [], _, _ => ⟨rfl, rfl⟩
    | [], _ :: _, h, _ => by simp at h
    | _ :: _, [], h, _ => by simp at h
    | sl :: r, o :: xs, h, q => by
      rw [List.map_cons, List.map_cons, List.cons.injEq] at h
      have hv := q sl List.mem_cons_self
      have he : toEntry sl = none := by rw [toEntry]; cases sl.inst <;> simp [hv]
      obtain ⟨a, b⟩ := quiet_path r xs h.2 fun x hx => q x (List.mem_cons_of_mem _ hx)
      rw [new_none _ _ _ _ he, keptSlots, fires, hv, a, b]
      exact ⟨rfl, rfl⟩

theorem kept_false : ∀ (slots : List Slot) (lat : List (Option Fetched)), slots.length = lat.length → keptSlots false slots lat = lat
  | [], [], _ => rfl
  | [], _ :: _, h => by simp at h
  | _ :: _, [], h => by simp at h
  | sl :: r, x :: xs, h => by
    rw [keptSlots, kept_false r xs (by simpa using h)]
    simp [fires]

theorem kept_insts (ready : Bool) : ∀ (slots : List Slot) (lat : List (Option Fetched)),
    slots.map Slot.inst = lat.map (Option.map (toInst prog)) →
    slots.map (fun sl => if fires ready sl then none else sl.inst) = (keptSlots ready slots lat).map (Option.map (toInst prog))
  | [], [], _ => rfl
  | [], _ :: _, h => by simp at h
  | _ :: _, [], h => by simp at h
  | sl :: r, x :: xs, h => by
    rw [List.map_cons, List.map_cons, List.cons.injEq] at h
    rw [List.map_cons, keptSlots, List.map_cons, kept_insts ready r xs h.2, h.1]
    cases fires ready sl <;> rfl

theorem path_none (x : W) : ∀ (l : List (Option Fetched)), (∀ o ∈ l, o = none) → Path x l ∧ pathEnd x l = x
  | [], _ => ⟨trivial, rfl⟩
  | o :: r, h => by
    have : o = none := h o List.mem_cons_self
    subst this
    exact path_none x r fun y hy => h y (List.mem_cons_of_mem _ hy)

theorem kept_none : ∀ (slots : List Slot) (lat : List (Option Fetched)), slots.map Slot.inst = lat.map (Option.map (toInst prog)) →
    slots.all (fun sl => fires true sl || sl.inst.isNone) = true → ∀ o ∈ keptSlots true slots lat, o = none
  | [], [], _, _, o, h => by simp [keptSlots] at h
  | [], _ :: _, h, _, _, _ => by simp at h
  | _ :: _, [], h, _, _, _ => by simp at h
  | sl :: r, x :: xs, h, ha, o, ho => by
    rw [List.map_cons, List.map_cons, List.cons.injEq] at h
    rw [List.all_cons, Bool.and_eq_true] at ha
    rw [keptSlots] at ho
    rcases List.mem_cons.1 ho with rfl | ho
    · cases hf : fires true sl with
      | true => rfl
      | false =>
        have h1 := ha.1
        rw [hf, Bool.false_or, h.1] at h1
        cases x with
        | none => rfl
        | some f => simp at h1
    · exact kept_none r xs h.2 ha.2 o ho

theorem kept_mem (ready : Bool) (f : Fetched) : ∀ (slots : List Slot) (lat : List (Option Fetched)), some f ∈ keptSlots ready slots lat → some f ∈ lat
  | [], _, h => by simp [keptSlots] at h
  | _ :: _, [], h => by simp [keptSlots] at h
  | sl :: r, x :: xs, h => by
    rw [keptSlots] at h
    rcases List.mem_cons.1 h with h | h
    · split at h
      · simp at h
      · rw [h]; exact List.mem_cons_self
    · exact List.mem_cons_of_mem _ (kept_mem ready f r xs h)

/-- Where a new task comes from. -/
theorem new_mem (k : Task) : ∀ (slots : List Slot) (lat : List (Option Fetched)), slots.map Slot.inst = lat.map (Option.map (toInst prog)) →
    k ∈ newTasks slots lat → ∃ f, some f ∈ lat ∧ k.pc = f.pc ∧ k.pn = f.pn ∧ (∀ t, k.e.tag = some t → (prog k.pc).isBr = true)
  | [], _, _, h => by simp [newTasks] at h
  | _ :: _, [], _, h => by simp [newTasks] at h
  | sl :: r, x :: xs, hm, h => by
    rw [List.map_cons, List.map_cons, List.cons.injEq] at hm
    have tl : k ∈ newTasks r xs → ∃ f, some f ∈ x :: xs ∧ k.pc = f.pc ∧ k.pn = f.pn ∧ (∀ t, k.e.tag = some t → (prog k.pc).isBr = true) :=
      fun h => let ⟨f, a, b⟩ := new_mem k r xs hm.2 h; ⟨f, List.mem_cons_of_mem _ a, b⟩
    cases he : toEntry sl with
    | none => rw [new_none _ _ _ _ he] at h; exact tl h
    | some e =>
      cases x with
      | none =>
        have : toEntry sl = none := by rw [toEntry, hm.1]; rfl
        rw [this] at he; simp at he
      | some f =>
        rw [new_some _ _ _ _ _ he] at h
        rcases List.mem_cons.1 h with rfl | h
        · refine ⟨f, List.mem_cons_self, rfl, rfl, fun t ht => ?_⟩
          have hi : sl.inst = some (toInst prog f) := hm.1
          rw [toEntry, hi] at he
          dsimp only at he ht ⊢
          split at he
          · rw [← Option.some.inj he] at ht
            dsimp only at ht
            split at ht
            · assumption
            · simp at ht
          · simp at he
        · exact tl h

/-! ### A misprediction -/

theorem cut_e (t : Nat) : ∀ (l : List Task), (cut t l).map Task.e = upTo t (l.map Task.e)
  | [] => rfl
  | k :: r => by
    rw [cut, List.map_cons, upTo]
    split
    · rfl
    · rw [List.map_cons, cut_e t r]

theorem cut_ok (t : Nat) {prf : Nat → W} : ∀ (l : List Task) (m : Nat → Nat) (σ : Isa M), Ok prog prf m σ l → Ok prog prf m σ (cut t l)
  | [], _, _, _ => trivial
  | k :: r, m, σ, ⟨a, b, c, d⟩ => by
    rw [cut]
    split
    · exact ⟨a, b, c, trivial⟩
    · exact ⟨a, b, c, cut_ok t r _ _ d⟩

theorem cut_link (t : Nat) (d : W) : ∀ (l : List Task) (a b : W), (∃ k ∈ l, k.e.tag = some t) → Link a l b → Link a (cut t l) (redirect t d l)
  | [], _, _, h, _ => by obtain ⟨k, hk, _⟩ := h; simp at hk
  | k :: r, a, b, ⟨j, hj, hjt⟩, hl => by
    rw [cut, redirect]
    split
    · exact ⟨hl.1, rfl⟩
    · rename_i hne
      rcases List.mem_cons.1 hj with rfl | hj
      · exact absurd hjt hne
      · exact ⟨hl.1, cut_link t d r _ b ⟨j, hj, hjt⟩ hl.2⟩

theorem cut_mem (t : Nat) (k : Task) : ∀ (l : List Task), k ∈ cut t l →
    ∃ j ∈ l, k.e = j.e ∧ k.pc = j.pc ∧ (k.pn = j.pn ∨ j.e.tag = some t)
  | [], h => by simp [cut] at h
  | j :: r, h => by
    rw [cut] at h
    split at h
    · rename_i ht
      rw [List.mem_singleton] at h
      subst h
      exact ⟨j, List.mem_cons_self, rfl, rfl, .inr ht⟩
    · rcases List.mem_cons.1 h with rfl | h
      · exact ⟨k, List.mem_cons_self, rfl, rfl, .inl rfl⟩
      · obtain ⟨i, hi, x⟩ := cut_mem t k r h
        exact ⟨i, List.mem_cons_of_mem _ hi, x⟩

theorem keepTag_e (c : Nat → Bool) (l : List Task) : (l.map (keepTag c)).map Task.e = (l.map Task.e).map (survive c) := by
  rw [List.map_map, List.map_map]; rfl

theorem survive_tag {c : Nat → Bool} {e : Entry} {t : Nat} (h : (survive c e).tag = some t) : e.tag = some t := by
  unfold survive at h
  dsimp only at h
  cases he : e.tag with
  | none => rw [he] at h; simp at h
  | some x =>
    rw [he, Option.filter_some] at h
    split at h
    · exact h
    · simp at h

/-- What the retirement of a cycle does. -/
theorem inv_retire (hA : 0 < A) {s : State M} {σ0 : Isa M} (h : Inv prog P A N σ0 s) {c : Cyc M} (v : Valid prog P A N s c) :
    ∃ rest, s.tasks = retired s c ++ rest ∧
      (cycle prog P A N s c).ren.regs.arch = applyAll s.ren.regs.arch ((retired s c).map Task.e) ∧
      Ok prog s.prf (cycle prog P A N s c).ren.regs.arch (after prog s.isa (retired s c)) rest ∧
      (∀ a, a < A → s.prf ((cycle prog P A N s c).ren.regs.arch a) = (after prog s.isa (retired s c)).regs a) ∧
      Runs prog σ0 (s.past ++ (retired s c).map (fun k => .inst k.pc)) (after prog s.isa (retired s c)) ∧
      (c.flush = false → ∃ x, Link (after prog s.isa (retired s c)).pc rest x ∧ Path x s.lat ∧ pathEnd x s.lat = s.expect) ∧
      (c.flush = false → retired s c = s.tasks.take c.retire ∧ rest = s.tasks.drop c.retire) := by
  obtain ⟨n, hn, hn'⟩ : ∃ n, retired s c = s.tasks.take n ∧ (c.flush = false → n = c.retire) := by
    unfold retired
    by_cases hx : (c.exc || c.interrupt) = true
    · refine ⟨0, by rw [if_pos hx]; rfl, fun hf => ?_⟩
      have := v.ren.exc (by rw [Bool.or_eq_true] at hx; exact hx)
      rw [show c.flush = true from this] at hf; simp at hf
    · exact ⟨c.retire, by rw [if_neg hx], fun _ => rfl⟩
  have harch : (cycle prog P A N s c).ren.regs.arch = applyAll s.ren.regs.arch ((retired s c).map Task.e) := by
    refine (regs_step hA h.ren v.ren).2.trans ?_
    rw [h.win]
    unfold retired
    show applyAll _ (if c.exc || c.interrupt then [] else _) = _
    split
    · rfl
    · rw [List.map_take]; rfl
  have hsp : s.tasks = retired s c ++ s.tasks.drop n := by rw [hn, List.take_append_drop]
  have hok := h.ok
  rw [hsp, ok_append] at hok
  obtain ⟨x, hl, hp⟩ := h.path
  rw [hsp] at hl
  obtain ⟨y, hl1, hl2⟩ := (link_append _ _ _ _).1 hl
  have hmem : ∀ k ∈ retired s c, k ∈ s.tasks := fun k hk => by rw [hsp]; exact List.mem_append_left _ hk
  obtain ⟨hr, hpc⟩ := runs_retire (retired s c) s.prf _ s.isa y hok.1 hl1 v.done (fun k hk => h.plainT k (hmem k hk))
    (fun pre k post hq hser => (v.serial pre k post hq hser).1)
  refine ⟨s.tasks.drop n, hsp, harch, by rw [harch]; exact hok.2, fun a ha => ?_, runs_append h.runs hr, fun hf => ?_,
    fun hf => by rw [← hn' hf]; exact ⟨hn, rfl⟩⟩
  · rw [harch]
    exact value_after _ _ _ hok.1 a (fun _ => h.regs a ha) fun j hj _ hd _ => by rw [(v.done j hj).1] at hd; simp at hd
  · refine ⟨x, ?_, hp⟩
    rw [hpc]
    · exact hl2
    · intro k hk
      rcases hq : (prog k.pc).serial with _ | _
      · rfl
      · obtain ⟨pre, post, e⟩ := List.append_of_mem hk
        have := (v.serial pre k post e hq).2
        rw [this] at hf; simp at hf

theorem inv_cycle (hA : 0 < A) {s : State M} {σ0 : Isa M} (h : Inv prog P A N σ0 s) {c : Cyc M} (v : Valid prog P A N s c) :
    Inv prog P A N σ0 (cycle prog P A N s c) := by
  obtain ⟨rest, hsp, harch, hok, hregs, hruns, hpath, hret⟩ := inv_retire hA h v
  have hsi : (renameGroup P s.ren.regs s.ren.insts).map Slot.inst = s.lat.map (Option.map (toInst prog)) :=
    (renameGroup_inst _ _).trans h.insts
  have hren : SInv P A N (cycle prog P A N s c).ren := sinv_step hA h.ren v.ren
  have hwin : (cycle prog P A N s c).ren.win = if c.flush then [] else match c.mispred with
      | some t => (upTo t s.ren.win).map (survive c.clear)
      | none => (s.ren.win.drop c.retire ++ if c.ready then entries (renameGroup P s.ren.regs s.ren.insts) else []).map (survive c.clear) := rfl
  have hins : (cycle prog P A N s c).ren.insts = combPipeline (renameGroup P s.ren.regs s.ren.insts) (c.dec.map (Option.map (toInst prog)))
      c.ready c.flush c.mispred := rfl
  have nonelat : ∀ (l : List Slot), (l.map fun _ => (none : Option Fetched)).map (Option.map (toInst prog)) = l.map fun _ => none := by
    intro l; rw [List.map_map]; rfl
  have nonemem : ∀ (l : List Slot), ∀ o ∈ l.map (fun _ => (none : Option Fetched)), o = none := by
    intro l o ho; obtain ⟨_, _, e⟩ := List.mem_map.1 ho; exact e.symm
  cases hf : c.flush with
  | true =>
    have e1 : (cycle prog P A N s c).tasks = [] := by unfold cycle; dsimp only; rw [if_pos hf]
    have e2 : (cycle prog P A N s c).lat = (renameGroup P s.ren.regs s.ren.insts).map (fun _ => none) := by
      unfold cycle; dsimp only; rw [hf]; rfl
    have e3 : (cycle prog P A N s c).isa = ⟨c.target, (after prog s.isa (retired s c)).regs, c.g (after prog s.isa (retired s c)).ext⟩ := by
      unfold cycle; dsimp only; rw [if_pos hf]
    have e4 : (cycle prog P A N s c).expect = c.target := by unfold cycle; dsimp only; rw [if_pos hf]
    have e5 : (cycle prog P A N s c).past = s.past ++ (retired s c).map (fun k => .inst k.pc) ++ [.jump c.target c.g] := by
      unfold cycle; dsimp only; rw [if_pos hf]
    refine ⟨hren, ?_, ?_, ?_, ?_, ?_, ?_, ?_, ?_, ?_⟩
    · rw [hwin, e1, if_pos hf]; rfl
    · rw [hins, e2, nonelat, combPipeline, hf]; rfl
    · rw [e1]; trivial
    · intro a ha; rw [e3]; exact hregs a ha
    · rw [e1, e2, e3, e4]
      exact ⟨c.target, rfl, path_none _ _ (nonemem _)⟩
    · rw [e1]; intro k hk; simp at hk
    · rw [e2]; intro f hm; exact absurd (nonemem _ _ hm) (by simp)
    · rw [e1]; intro k hk; simp at hk
    · rw [e5, e3]; exact runs_append hruns (.jump _ _ (.nil _))
  | false =>
    obtain ⟨x, hl, hpa, hpe⟩ := hpath hf
    obtain ⟨hret1, hret2⟩ := hret hf
    have e3 : (cycle prog P A N s c).isa = after prog s.isa (retired s c) := by
      unfold cycle; dsimp only; rw [hf]; rfl
    have e5 : (cycle prog P A N s c).past = s.past ++ (retired s c).map (fun k => .inst k.pc) := by
      unfold cycle; dsimp only; rw [hf]; exact List.append_nil _
    cases hm : c.mispred with
    | some t =>
      obtain ⟨hr0, _, e, he, het⟩ := v.ren.mispred t hm
      have e1 : (cycle prog P A N s c).tasks = (cut t s.tasks).map (keepTag c.clear) := by
        unfold cycle; dsimp only; rw [hf, hm]; rfl
      have e2 : (cycle prog P A N s c).lat = (renameGroup P s.ren.regs s.ren.insts).map (fun _ => none) := by
        unfold cycle; dsimp only; rw [hf, hm]; rfl
      have e4 : (cycle prog P A N s c).expect = redirect t s.expect s.tasks := by
        unfold cycle; dsimp only; rw [hf, hm]; rfl
      have hrest : rest = s.tasks := by rw [hret2, show c.retire = 0 from hr0]; rfl
      rw [hrest] at hok hl
      have hex : ∃ k ∈ s.tasks, k.e.tag = some t := by
        rw [h.win] at he
        obtain ⟨k, hk, rfl⟩ := List.mem_map.1 he
        exact ⟨k, hk, het⟩
      have src : ∀ k ∈ (cut t s.tasks).map (keepTag c.clear), ∃ j ∈ s.tasks, (∀ u, k.e.tag = some u → j.e.tag = some u) ∧ k.pc = j.pc ∧
          (k.pn = j.pn ∨ j.e.tag = some t) := by
        intro k hk
        obtain ⟨i, hi, rfl⟩ := List.mem_map.1 hk
        obtain ⟨j, hj, a, b, d⟩ := cut_mem t i _ hi
        exact ⟨j, hj, fun u hu => by rw [← a]; exact survive_tag hu, b, d⟩
      refine ⟨hren, ?_, ?_, ?_, ?_, ?_, ?_, ?_, ?_, ?_⟩
      · rw [hwin, e1, hf, hm, keepTag_e, cut_e, h.win]; rfl
      · rw [hins, e2, nonelat, combPipeline, hf, hm]; rfl
      · rw [e1, e3]; exact ok_keepTag _ _ _ _ (cut_ok t _ _ _ hok)
      · intro a ha; rw [e3]; exact hregs a ha
      · rw [e1, e2, e3, e4]
        exact ⟨_, link_keepTag _ _ _ _ (cut_link t _ _ _ _ hex hl), path_none _ _ (nonemem _)⟩
      · rw [e1]
        intro k hk
        obtain ⟨j, hj, _, b, d⟩ := src k hk
        rcases d with d | d
        · rw [b, d]; exact h.plainT j hj
        · intro hb; rw [b, h.tag j hj t d] at hb; simp at hb
      · rw [e2]; intro f hm; exact absurd (nonemem _ _ hm) (by simp)
      · rw [e1]
        intro k hk u hu
        obtain ⟨j, hj, a, b, _⟩ := src k hk
        rw [b]; exact h.tag j hj u (a u hu)
      · rw [e5, e3]; exact hruns
    | none =>
      have e1 : (cycle prog P A N s c).tasks =
          (rest ++ if c.ready then newTasks (renameGroup P s.ren.regs s.ren.insts) s.lat else []).map (keepTag c.clear) := by
        unfold cycle; dsimp only; rw [hf, hm, hret2]; rfl
      have e2 : (cycle prog P A N s c).lat = if readyOut (renameGroup P s.ren.regs s.ren.insts) c.ready c.flush c.mispred then c.dec
          else keptSlots c.ready (renameGroup P s.ren.regs s.ren.insts) s.lat := by
        unfold cycle; dsimp only
        rw [if_neg (by rw [hf, hm]; exact Bool.false_ne_true)]
      have e4 : (cycle prog P A N s c).expect = if readyOut (renameGroup P s.ren.regs s.ren.insts) c.ready c.flush c.mispred
          then pathEnd s.expect c.dec else s.expect := by
        unfold cycle; dsimp only
        rw [if_neg (by rw [hf]; exact Bool.false_ne_true)]
        split
        · rename_i hx; rw [hm] at hx; simp at hx
        · rfl
      have src : ∀ k ∈ (rest ++ if c.ready then newTasks (renameGroup P s.ren.regs s.ren.insts) s.lat else []).map (keepTag c.clear),
          Plain prog k.pc k.pn ∧ ∀ t, k.e.tag = some t → (prog k.pc).isBr = true := by
        intro k hk
        obtain ⟨i, hi, rfl⟩ := List.mem_map.1 hk
        rcases List.mem_append.1 hi with hi | hi
        · have : i ∈ s.tasks := by rw [hsp]; exact List.mem_append_right _ hi
          exact ⟨h.plainT i this, fun t ht => h.tag i this t (survive_tag ht)⟩
        · split at hi
          · obtain ⟨f, a, b, d, g⟩ := new_mem i _ _ hsi hi
            refine ⟨?_, fun t ht => g t (survive_tag ht)⟩
            show Plain prog i.pc i.pn
            rw [b, d]; exact h.plainL f a
          · simp at hi
      have hnewok : Ok prog s.prf (applyAll (cycle prog P A N s c).ren.regs.arch (rest.map Task.e))
          (after prog (after prog s.isa (retired s c)) rest)
          (if c.ready then newTasks (renameGroup P s.ren.regs s.ren.insts) s.lat else []) := by
        have hspec : applyAll (cycle prog P A N s c).ren.regs.arch (rest.map Task.e) = s.ren.regs.spec := by
          rw [harch, ← applyAll_append, ← List.map_append, ← hsp, ← h.win]
          exact h.ren.regs.specEq.symm
        rw [hspec]
        split
        · exact new_ok _ _ _ _ _ _ hsi (good_group h.ren)
        · trivial
      -- the path through the rename stage
      have hpp : ∃ y, Link x (if c.ready then newTasks (renameGroup P s.ren.regs s.ren.insts) s.lat else []) y ∧
          Path y (cycle prog P A N s c).lat ∧ pathEnd y (cycle prog P A N s c).lat = (cycle prog P A N s c).expect := by
        rw [e2, e4]
        have hlen : (renameGroup P s.ren.regs s.ren.insts).length = s.lat.length := by
          have := congrArg List.length hsi; simpa using this
        have hpre : Prefix (renameGroup P s.ren.regs s.ren.insts) := prefix_rename _ _ _ _ _
        obtain ⟨y, b1, b2, b3⟩ : ∃ y, Link x (if c.ready then newTasks (renameGroup P s.ren.regs s.ren.insts) s.lat else []) y ∧
            Path y (keptSlots c.ready (renameGroup P s.ren.regs s.ren.insts) s.lat) ∧
            pathEnd y (keptSlots c.ready (renameGroup P s.ren.regs s.ren.insts) s.lat) = s.expect := by
          cases hr : c.ready with
          | true =>
            obtain ⟨y, b1, b2, b3⟩ := new_path _ _ x hsi hpre hpa
            exact ⟨y, b1, b2, b3.trans hpe⟩
          | false => rw [kept_false _ _ hlen]; exact ⟨x, rfl, hpa, hpe⟩
        by_cases ht : readyOut (renameGroup P s.ren.regs s.ren.insts) c.ready c.flush c.mispred = true
        · rw [if_pos ht, if_pos ht]
          have hall : ∀ o ∈ keptSlots c.ready (renameGroup P s.ren.regs s.ren.insts) s.lat, o = none := by
            have ha := ht
            unfold readyOut at ha
            rw [Bool.and_eq_true] at ha
            cases hr : c.ready with
            | true => rw [hr] at ha; exact kept_none _ _ hsi ha.1
            | false =>
              rw [kept_false _ _ hlen]
              intro o ho
              cases o with
              | none => rfl
              | some f =>
                have : some (toInst prog f) ∈ (renameGroup P s.ren.regs s.ren.insts).map Slot.inst := by
                  rw [hsi]; exact List.mem_map.2 ⟨_, ho, rfl⟩
                obtain ⟨sl, hsl, hi⟩ := List.mem_map.1 this
                have := List.all_eq_true.1 ha.1 sl hsl
                rw [hr] at this
                simp [fires, hi] at this
          have hy : y = s.expect := by rw [← b3]; exact ((path_none y _ hall).2).symm
          exact ⟨y, b1, by rw [hy]; exact v.path ht, by rw [hy]⟩
        · rw [if_neg ht, if_neg ht]; exact ⟨y, b1, b2, b3⟩
      refine ⟨hren, ?_, ?_, ?_, ?_, ?_, ?_, ?_, ?_, ?_⟩
      · rw [hwin, e1, hf, hm, keepTag_e, h.win, hret2, ← List.map_drop, List.map_append (f := Task.e)]
        have : (if c.ready then newTasks (renameGroup P s.ren.regs s.ren.insts) s.lat else []).map Task.e =
            if c.ready then entries (renameGroup P s.ren.regs s.ren.insts) else [] := by
          split
          · exact new_e _ _ hsi
          · rfl
        rw [this]; rfl
      · rw [hins, e2, combPipeline, if_neg (by rw [hf, hm]; exact Bool.false_ne_true)]
        split
        · rfl
        · exact kept_insts _ _ _ hsi
      · rw [e1, e3]
        exact ok_keepTag _ _ _ _ ((ok_append _ _ _ _).2 ⟨hok, hnewok⟩)
      · intro a ha; rw [e3]; exact hregs a ha
      · rw [e1, e3]
        obtain ⟨y, b1, b2, b3⟩ := hpp
        exact ⟨y, link_keepTag _ _ _ _ ((link_append _ _ _ _).2 ⟨x, hl, b1⟩), b2, b3⟩
      · rw [e1]; exact fun k hk => (src k hk).1
      · rw [e2]
        intro f hmem
        split at hmem
        · exact v.plain f hmem
        · exact h.plainL f (kept_mem _ _ _ _ hmem)
      · rw [e1]; exact fun k hk => (src k hk).2
      · rw [e5, e3]; exact hruns

theorem inv_init (hA : 0 < A) (hAP : A ≤ P) (w : Nat) (prf : Nat → W) (pc : W) (m : M) :
    Inv prog P A N ⟨pc, prf, m⟩ (State.init P A w prf pc m) := by
  refine ⟨sinv_init hA hAP w, rfl, ?_, trivial, ?_, ⟨pc, rfl, path_none _ _ ?_⟩, ?_, ?_, ?_, .nil _⟩
  · show List.replicate w none = (List.replicate w none).map _
    rw [List.map_replicate]; rfl
  · intro a ha
    show prf (if a < A then a else 0) = prf a
    rw [if_pos ha]
  · intro o ho; exact List.eq_of_mem_replicate ho
  · intro k hk; exact absurd hk List.not_mem_nil
  · intro f hf; exact absurd (List.eq_of_mem_replicate hf) nofun
  · intro k hk; exact absurd hk List.not_mem_nil

theorem inv_reach (hA : 0 < A) (hAP : A ≤ P) (wf : WfProg prog A) {w : Nat} {prf : Nat → W} {pc : W} {m : M} {s : State M}
    (h : Reach prog P A N (State.init P A w prf pc m) s) : Inv prog P A N ⟨pc, prf, m⟩ s := by
  induction h with
  | init => exact inv_init hA hAP w prf pc m
  | cycle c _ v ih => exact inv_cycle hA ih v
  | run _ hs hc ih => exact inv_finish hA wf ih hs hc
  | write _ hs hc ih => exact inv_write hA wf ih hs hc

end Verif.Core

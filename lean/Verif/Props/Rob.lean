import Verif.Proofs.Rob
/-
C16–C19, C37, C39: the reorder buffer.  All statements quantify over every state reachable from
reset of the buffer closed with its environment (`Verif.Spec.RobQueue`), for any numbers of banks
`B` and lines `L`.  `insts` reads the buffer as a queue, oldest instruction first.
-/
namespace Verif.Props
open Verif.Ring Verif.Rob Verif.RobQueue Verif.Proofs.Rob

variable {B L : Nat} {s : State}

/-- C16: the instructions retired in a cycle are the oldest ones of the buffer, in order. -/
theorem C16_retire_oldest (hL : 0 < L) (h : Reach B L s) (i : Input) (hv : Valid B L s i) :
    retired s i <+: insts L s := by
  obtain ⟨W, hW⟩ := rinv_reach hL h
  obtain ⟨rest, h1, _⟩ := ids_step hW i hv
  exact ⟨rest, h1.symm⟩

/-- C16: after a cycle without redirection the buffer holds what did not retire, then what was
dispatched, unchanged and in order. -/
theorem C16_queue (hL : 0 < L) (h : Reach B L s) (i : Input) (hv : Valid B L s i)
    (hm : i.mispred = none) (hf : flushed s i = false) :
    (insts L (step B L s i)).map sig =
      ((insts L s).drop (retired s i).length ++ dispatched i).map sig := by
  obtain ⟨W, hW⟩ := rinv_reach hL h
  obtain ⟨W', hW', rest, h1, _, h3⟩ := rinv_step hW i hv
  rw [rinv_insts hW', rinv_insts hW, h3, h1, List.drop_left, hf, hm, List.map_append]
  rfl

/-- C16: a flush empties the buffer. -/
theorem C16_flush (hL : 0 < L) (h : Reach B L s) (i : Input) (hv : Valid B L s i)
    (hf : flushed s i = true) : insts L (step B L s i) = [] := by
  obtain ⟨W, hW⟩ := rinv_reach hL h
  obtain ⟨rest, _, _, h3⟩ := ids_step hW i hv
  rw [if_pos hf] at h3
  exact List.map_eq_nil_iff.1 h3

/-- C16: over any execution, the instructions retired so far followed by those in the buffer are,
in order, some of the dispatched instructions. -/
theorem C16_program_order (hL : 0 < L) {d c q g} (h : Hist B L s d c q g) :
    (c ++ (insts L s).map (·.id)).Sublist d :=
  (hist_order hL h).1

/-- C16: every dispatched instruction is exactly one of: retired once, in the buffer once,
squashed once. -/
theorem C16_conservation (hL : 0 < L) {d c q g} (h : Hist B L s d c q g) :
    d.Perm (c ++ (insts L s).map (·.id) ++ q) :=
  (hist_order hL h).2

/-- C17: unless it is interrupted, an instruction retires only when every part it consists of has
been reported finished since it was dispatched. -/
theorem C17_complete (hL : 0 < L) {d c q g} (h : Hist B L s d c q g) (i : Input)
    (hv : Valid B L s i) (hi : i.intReq = false) (u : Uop) (hu : u ∈ retired s i) :
    g u.robIdx = u.expect := by
  have hr := hist_reach h
  obtain ⟨W, hW⟩ := rinv_reach hL hr
  have hd := done_hist hL h
  have hc : complete u = true := by
    rcases retire_cases hW i with h1 | h1 | ⟨v, rest, h1, _, h2, _⟩
    · rw [h1.1] at hu; cases hu
    · exact (h1.2.2.2.1 u hu).1
    · rw [h1, List.mem_singleton] at hu; rw [hu]; exact h2 hi
  have hmem : u ∈ insts L s := (C16_retire_oldest hL hr i hv).subset hu
  rw [rinv_insts hW] at hmem
  obtain ⟨row, hrow, huin⟩ := mem_content.1 hmem
  rw [← hW.win] at hrow
  obtain ⟨k, hk, rfl⟩ := (mem_ring L s.rows _ _ hW.deqLt).1 hrow
  obtain ⟨b, hb⟩ := List.mem_iff_getElem?.1 huin
  have hbB : b < B := by
    have := (List.getElem?_eq_some_iff.1 hb).1
    rw [hW.rowLen] at this; exact this
  rw [(hW.loc k hk b u hb).1, ← hd _ b u hbB hb]
  simpa [complete] using hc

/-- C17: an exception, any other flushing instruction and an interrupt each retire one instruction
only, the oldest, and exactly these cycles flush. -/
theorem C17_precise (hL : 0 < L) (h : Reach B L s) (i : Input) :
    (∀ u ∈ retired s i, isFlush u = true ∨ i.intReq = true → retired s i = [u] ∧ (insts L s).head? = some u) ∧
    (flushed s i = true ↔ ∃ u ∈ retired s i, isFlush u = true ∨ i.intReq = true) := by
  obtain ⟨W, hW⟩ := rinv_reach hL h
  rcases retire_cases hW i with h1 | h1 | ⟨v, rest, h1, h2, h3, h4, _⟩
  · rw [h1.1, h1.2]; simp
  · refine ⟨fun u hu hx => ?_, ?_⟩
    · have := (h1.2.2.2.1 u hu).2
      rw [this, h1.2.1] at hx; rcases hx with hx | hx <;> cases hx
    · rw [h1.2.2.1]
      constructor
      · intro hx; cases hx
      · rintro ⟨u, hu, hx⟩
        have := (h1.2.2.2.1 u hu).2
        rw [this, h1.2.1] at hx; rcases hx with hx | hx <;> cases hx
  · rw [h1, h2, h4]
    simp

/-- C17: nothing retires in a misprediction cycle. -/
theorem C17_no_retire_on_mispredict (hL : 0 < L) (h : Reach B L s) (i : Input)
    (hm : i.mispred.isSome = true) : retired s i = [] ∧ flushed s i = false := by
  obtain ⟨W, hW⟩ := rinv_reach hL h
  rcases retire_cases hW i with h1 | h1 | ⟨v, rest, _, _, _, _, h5⟩
  · exact h1
  · rw [h1.2.2.2.2] at hm; cases hm
  · rw [h5] at hm; cases hm

/-- C17: every flushing instruction, interrupt or WFI is given a reason (the `else` assertion of
the broadcast is never reached), which names a page fault only if that fault was recorded and no
interrupt is taken. -/
theorem C17_cause (u : Uop) (int : Bool) :
    causeOf u int ≠ some .assertFails ∧
    (∀ v, causeOf u int = some (.storeFault v) → u.pfStore = true ∧ v = u.diag ∧ int = false) ∧
    (∀ v, causeOf u int = some (.loadFault v) → u.pfLoad = true ∧ u.pfStore = false ∧ v = u.diag ∧ int = false) ∧
    (causeOf u int = some .instFault → u.pfInst = true ∧ int = false) ∧
    (∀ v, causeOf u int = some (.illegal v) → u.illegal = true ∧ isPageFault u = false ∧ v = u.diag ∧ int = false) ∧
    (causeOf u int = some .interrupt ↔ int = true) := by
  rcases u with ⟨id, ri, rf, ty, ex, cp, dg, p1, p2, p3, il, fp⟩
  cases int <;> cases p1 <;> cases p2 <;> cases p3 <;> cases il <;> cases fp <;> cases ty <;>
    simp [causeOf, isFlush, isWfi, isExc, isPageFault] <;> exact eq_comm

/-- C18: after a misprediction the buffer holds exactly the instructions up to and including the
redirecting one, in the same order. -/
theorem C18_truncate (hL : 0 < L) (h : Reach B L s) (i : Input) (hv : Valid B L s i) (r : Nat)
    (hm : i.mispred = some r) :
    (insts L (step B L s i)).map sig = (upTo r (insts L s)).map sig := by
  obtain ⟨W, hW⟩ := rinv_reach hL h
  obtain ⟨W', hW', rest, h1, _, h3⟩ := rinv_step hW i hv
  have hf := (C17_no_retire_on_mispredict hL h i (by rw [hm]; rfl)).2
  rw [rinv_insts hW', rinv_insts hW, h3, hf, hm]
  rfl

/-- C18: the empty status says that there is no instruction. -/
theorem C18_empty (hL : 0 < L) (h : Reach B L s) : isEmpty s = true ↔ insts L s = [] := by
  obtain ⟨W, hW⟩ := rinv_reach hL h
  rw [rinv_empty hW, rinv_insts hW]
  constructor
  · rintro rfl; rfl
  · intro hc
    cases W with
    | nil => rfl
    | cons r W =>
      obtain ⟨u, hu⟩ := hW.ne r (List.mem_cons_self ..)
      have : u ∈ content (r :: W) := mem_content.2 ⟨r, List.mem_cons_self .., hu⟩
      rw [hc] at this; cases this

/-- C18: the full status says that every line holds an instruction. -/
theorem C18_full (hL : 0 < L) (h : Reach B L s) :
    isFull s = true ↔ ∀ l, l < L → ∃ u, some u ∈ s.rows l := by
  obtain ⟨W, hW⟩ := rinv_reach hL h
  have hd := hW.deqLt
  rw [rinv_full hW]
  constructor
  · intro hlen l hl
    have hmem : s.rows l ∈ W := by
      rw [← hW.win]
      refine (mem_ring L s.rows _ _ hd).2 ?_
      by_cases hc : s.deq ≤ l
      · exact ⟨l - s.deq, by omega, by rw [Nat.add_sub_cancel' hc, Nat.mod_eq_of_lt hl]⟩
      · refine ⟨l + L - s.deq, by omega, ?_⟩
        rw [show s.deq + (l + L - s.deq) = l + L by omega, Nat.add_mod_right, Nat.mod_eq_of_lt hl]
    exact hW.ne _ hmem
  · intro hall
    have := hW.len
    apply Classical.byContradiction
    intro hne
    obtain ⟨u, hu⟩ := hall ((s.deq + W.length) % L) (Nat.mod_lt _ hL)
    have := hW.out W.length (by omega) (by omega) _ hu
    cases this

/-- C19, for FENCE.I and SFENCE.VMA: neither retires while a committed store is pending.
Missing: plain FENCE, for which the property is false (`C19_fence_negation`). -/
theorem C19_partial (hL : 0 < L) (h : Reach B L s) (i : Input) (hi : i.intReq = false)
    (hp : i.storePending = true) (u : Uop) (hu : u ∈ retired s i) : u.ty ≠ .fenceI ∧ u.ty ≠ .sfenceVma := by
  obtain ⟨W, hW⟩ := rinv_reach hL h
  have key : isFlush u = true → isFence u = false := by
    intro hf
    obtain ⟨hone, hhead⟩ := (C17_precise hL h i).1 u hu (.inl hf)
    exact fence_gate hi hp hf (by rw [hone]; exact List.mem_singleton.2 rfl)
  constructor
  all_goals
    intro ht
    have := key (by simp [isFlush, ht])
    simp [isFence, ht] at this

/-- C19 fails for FENCE: whenever the oldest instruction is a finished plain FENCE (that raised no
exception and requests no flush), it retires, whatever is pending in the store queue. -/
theorem C19_fence_ungated (hL : 0 < L) (h : Reach B L s) (i : Input) (hi : i.intReq = false)
    (hm : i.mispred = none) (u : Uop) (rest : List Uop) (hu : insts L s = u :: rest)
    (_ht : u.ty = .fence) (hc : complete u = true) (hf : isFlush u = false) : u ∈ retired s i := by
  obtain ⟨W, hW⟩ := rinv_reach hL h
  exact progress hW hu hi hm hc (.inl hf)

/-- C39: the oldest instruction retires in the first cycle in which it is finished, unless there is
a misprediction in that cycle, or it is a flushing fence waiting for pending stores. -/
theorem C39_progress (hL : 0 < L) (h : Reach B L s) (i : Input) (hi : i.intReq = false)
    (hm : i.mispred = none) (u : Uop) (rest : List Uop) (hu : insts L s = u :: rest)
    (hc : complete u = true) (hg : isFlush u = false ∨ isFence u = false ∨ i.storePending = false) :
    u ∈ retired s i := by
  obtain ⟨W, hW⟩ := rinv_reach hL h
  exact progress hW hu hi hm hc hg

/-- C39: an interrupt request is taken in the first cycle without misprediction in which the buffer
holds an instruction, whether or not that instruction is finished. -/
theorem C39_interrupt (hL : 0 < L) (h : Reach B L s) (i : Input) (hi : i.intReq = true)
    (hm : i.mispred = none) (u : Uop) (rest : List Uop) (hu : insts L s = u :: rest) :
    retired s i = [u] ∧ flushed s i = true ∧ causeOf u true = some .interrupt := by
  obtain ⟨W, hW⟩ := rinv_reach hL h
  refine ⟨?_, ?_, (C17_cause u true).2.2.2.2.2.2 rfl⟩
  · exact (interrupt_fire hW hu hi hm).1
  · exact (interrupt_fire hW hu hi hm).2

/-- C37: of two instructions in the buffer, the comparison calls the first one younger exactly when
it comes later in the buffer. -/
theorem C37_age (hL : 0 < L) (h : Reach B L s) {m n : Nat} {u v : Uop}
    (hu : (insts L s)[m]? = some u) (hv : (insts L s)[n]? = some v) : younger u v = true ↔ n < m := by
  obtain ⟨W, hW⟩ := rinv_reach hL h
  have hp := List.pairwise_iff_getElem.1 (age_pairwise hW)
  obtain ⟨hm, rfl⟩ := List.getElem?_eq_some_iff.1 hu
  obtain ⟨hn, rfl⟩ := List.getElem?_eq_some_iff.1 hv
  constructor
  · intro hy
    apply Classical.byContradiction
    intro hlt
    by_cases he : m = n
    · subst he; simp [younger] at hy
    · have := (hp m n hm hn (by omega)).2
      rw [hy] at this; cases this
  · intro hlt
    exact (hp n m hn hm hlt).1

/-- C37: within the buffer the comparison is a strict total order. -/
theorem C37_total (hL : 0 < L) (h : Reach B L s) {u v w : Uop} (hu : u ∈ insts L s) (hv : v ∈ insts L s)
    (hw : w ∈ insts L s) :
    younger u u = false ∧ (younger u v = true → younger v u = false) ∧
    (younger u v = true → younger v w = true → younger u w = true) ∧
    (u ≠ v → younger u v = true ∨ younger v u = true) := by
  obtain ⟨m, hm⟩ := List.mem_iff_getElem?.1 hu
  obtain ⟨n, hn⟩ := List.mem_iff_getElem?.1 hv
  obtain ⟨k, hk⟩ := List.mem_iff_getElem?.1 hw
  have ff : ∀ {b : Bool}, ¬ b = true → b = false := fun {b} hb => by cases b <;> simp_all
  refine ⟨ff fun hx => ?_, fun hx => ff fun hy => ?_, fun hx hy => ?_, fun hne => ?_⟩
  · have := (C37_age hL h hm hm).1 hx; omega
  · have := (C37_age hL h hm hn).1 hx
    have := (C37_age hL h hn hm).1 hy
    omega
  · have := (C37_age hL h hm hn).1 hx
    have := (C37_age hL h hn hk).1 hy
    exact (C37_age hL h hm hk).2 (by omega)
  · rcases Nat.lt_trichotomy n m with hlt | he | hlt
    · left; exact (C37_age hL h hm hn).2 hlt
    · subst he; rw [hm] at hn; exact absurd (Option.some.inj hn) hne
    · right; exact (C37_age hL h hn hm).2 hlt

/-! ### A concrete run

Two banks, two lines.  Cycle 0 dispatches a FENCE (payload 10) and an ADD (payload 11), cycle 1
two more instructions and reports the FENCE finished; the buffer is then full. -/

def mkUop (id idx : Nat) (f : Bool) (ty : Ty) : Uop :=
  { id := id, robIdx := idx, robFlag := f, ty := ty, expect := 1, cplt := 0, diag := 0
    pfInst := false, pfLoad := false, pfStore := false, illegal := false, flushPipe := false }

def idle : Input := ⟨none, false, false, false, [], [none, none]⟩

def in0 : Input := { idle with fire := [some (mkUop 10 0 false .fence), some (mkUop 11 1 false .other)] }
def in1 : Input :=
  { idle with fire := [some (mkUop 12 2 false .other), some (mkUop 13 3 false .ecall)]
              wbs := [⟨0, .other, 1, 0, 0, false, false, false, false⟩] }
/-- a pending store, and ADD reported finished -/
def in2 : Input :=
  { idle with storePending := true, wbs := [⟨1, .other, 1, 0, 0, false, false, false, false⟩] }

def s1 : State := step 2 2 (Rob.init 2) in0
def s2 : State := step 2 2 s1 in1
def s3 : State := step 2 2 s2 in2

theorem fire_split {x y : Option Uop} {P : Nat → Uop → Prop}
    (h0 : ∀ u, x = some u → P 0 u) (h1 : ∀ u, y = some u → P 1 u) :
    ∀ b u, ([x, y] : Row)[b]? = some (some u) → P b u
  | 0, u, h => h0 u (by simpa using h)
  | 1, u, h => h1 u (by simpa using h)
  | n + 2, u, h => by simp at h

theorem reach1 : Reach 2 2 s1 := by
  refine .step in0 .init ⟨rfl, fire_split ?_ ?_, by decide, by intro r hr; cases hr⟩
  all_goals (intro u hu; cases hu; decide)

theorem reach2 : Reach 2 2 s2 := by
  refine .step in1 reach1 ⟨rfl, fire_split ?_ ?_, by decide, by intro r hr; cases hr⟩
  all_goals (intro u hu; cases hu; decide)

theorem valid_idle {s : State} {i : Input} (hf : i.fire = [none, none]) (hm : i.mispred = none) : Valid 2 2 s i := by
  refine ⟨by rw [hf]; rfl, ?_, ?_, by intro r hr; rw [hm] at hr; cases hr⟩
  · rw [hf]; refine fire_split ?_ ?_ <;> (intro u hu; cases hu)
  · rw [hf]; intro _ o ho; simpa using ho

theorem reach3 : Reach 2 2 s3 := .step in2 reach2 (valid_idle rfl rfl)

-- the buffer is full, then the FENCE alone retires although a store is pending
example : (insts 2 s2).map (·.id) = [10, 11, 12, 13] ∧ isFull s2 = true := by decide
example : (retired s2 in2).map (·.id) = [10] ∧ (insts 2 s3).map (·.id) = [11, 12, 13] := by decide

/-- C19 is false for FENCE: a reachable state, a store pending, and the FENCE retires. -/
theorem C19_fence_negation :
    ∃ (s : State) (i : Input) (u : Uop), Reach 2 2 s ∧ Valid 2 2 s i ∧ i.intReq = false ∧
      i.storePending = true ∧ u ∈ retired s i ∧ u.ty = .fence := by
  refine ⟨s2, in2, { mkUop 10 0 false .fence with cplt := 1 }, reach2, valid_idle rfl rfl, rfl, rfl, ?_, rfl⟩
  decide

-- a misprediction at payload 12 keeps 11 and 12 and drops 13
example : (insts 2 (step 2 2 s3 { idle with mispred := some 2 })).map (·.id) = [11, 12] := by decide
example : Valid 2 2 s3 { idle with mispred := some 2 } :=
  ⟨rfl, fire_split (by intro u hu; cases hu) (by intro u hu; cases hu), by decide, by
    intro r hr; cases hr; refine ⟨⟨mkUop 12 2 false .other, by decide, rfl⟩, by decide⟩⟩

-- ADD and the next instruction retire, then the ECALL alone, flushing
def in3 : Input := { idle with wbs := [⟨2, .other, 1, 0, 0, false, false, false, false⟩] }
def in4 : Input := { idle with wbs := [⟨3, .other, 1, 0, 0, false, false, false, false⟩] }
example : (retired s3 in3).map (·.id) = [11] ∧ (retired (step 2 2 s3 in3) in4).map (·.id) = [12] := by decide
example : retired (step 2 2 (step 2 2 s3 in3) in4) idle = [{ mkUop 13 3 false .ecall with cplt := 1 }] ∧
    flushed (step 2 2 (step 2 2 s3 in3) in4) idle = true ∧
    insts 2 (step 2 2 (step 2 2 (step 2 2 s3 in3) in4) idle) = [] := by decide
-- wrap-around: payload 20 is dispatched into line 0 after 11 has retired, and is younger than 13
def in5 : Input := { idle with fire := [some (mkUop 20 0 true .other), none] }
example : (insts 2 (step 2 2 (step 2 2 s3 in3) in5)).map (·.id) = [13, 20] ∧
    younger (mkUop 20 0 true .other) (mkUop 13 3 false .ecall) = true ∧
    younger (mkUop 13 3 false .ecall) (mkUop 20 0 true .other) = false := by decide
-- an interrupt takes the oldest instruction, finished or not
example : (retired s1 { idle with intReq := true }).map (·.id) = [10] ∧
    flushed s1 { idle with intReq := true } = true := by decide

end Verif.Props

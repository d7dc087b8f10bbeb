import Verif.Proofs.CoreFlow
/-
C90: out-of-order execution computes the values of sequential execution.
C91: what retires is an execution of the program, and the committed registers are its registers.
-/
namespace Verif.Props
open Verif.Core Verif.Ren Verif.RenWindow Verif.Ring

variable {M : Type} {prog : W → Sem M} {P A N w : Nat} {prf : Nat → W} {pc : W} {m : M} {s : State M}

/-- C90 (operands): in every reachable state, an instruction in flight whose producers have run finds in its source registers
the values a sequential machine has after the instructions before it. -/
theorem C90_operands (hA : 0 < A) (hAP : A ≤ P) (wf : WfProg prog A) (h : Reach prog P A N (State.init P A w prf pc m) s)
    {pre post : List Task} {k : Task} (hs : s.tasks = pre ++ k :: post) (hc : CanRun prog pre k) :
    k.arg1 prog s.prf = (prog k.pc).arg1 (after prog s.isa pre).regs ∧
    k.arg2 prog s.prf = (prog k.pc).arg2 (after prog s.isa pre).regs := by
  have hi := inv_reach hA hAP wf h
  obtain ⟨hv, hp1, hp2⟩ := operand hi hs
  constructor
  · unfold Task.arg1 Sem.arg1
    by_cases u : (prog k.pc).use1 = true
    · rw [if_pos u, if_pos u, hp1]
      exact hv _ ((wf k.pc).1 u) (by rw [← hp1]; exact hc.one u)
    · rw [if_neg u, if_neg u]
  · unfold Task.arg2 Sem.arg2
    by_cases u : (prog k.pc).use2 = true
    · rw [if_pos u, if_pos u, hp2]
      exact hv _ ((wf k.pc).2 u) (by rw [← hp2]; exact hc.two u)
    · rw [if_neg u, if_neg u]

/-- C90 (results): an instruction that has run left the sequential machine's result in its destination register, and found
its successor. -/
theorem C90_results (hA : 0 < A) (hAP : A ≤ P) (wf : WfProg prog A) (h : Reach prog P A N (State.init P A w prf pc m) s)
    {pre post : List Task} {k : Task} (hs : s.tasks = pre ++ k :: post) (hd : k.done = true) :
    k.act = (after prog s.isa (pre ++ [k])).pc ∧
    (k.e.destEn = true → s.prf k.e.preg = (after prog s.isa (pre ++ [k])).regs k.e.areg) := by
  have hok := (inv_reach hA hAP wf h).ok
  rw [hs, ok_append] at hok
  rw [after_append]
  exact ⟨hok.2.2.2.1.1 hd, hok.2.2.2.1.2 (.inl hd)⟩

/-- One that has only written its result has left the result of the instruction-set machine as well. -/
theorem C90_written (hA : 0 < A) (hAP : A ≤ P) (wf : WfProg prog A) (h : Reach prog P A N (State.init P A w prf pc m) s)
    {pre post : List Task} {k : Task} (hs : s.tasks = pre ++ k :: post) (hd : k.wrote = true) (he : k.e.destEn = true) :
    s.prf k.e.preg = (after prog s.isa (pre ++ [k])).regs k.e.areg := by
  have hok := (inv_reach hA hAP wf h).ok
  rw [hs, ok_append] at hok
  rw [after_append]
  exact hok.2.2.2.1.2 (.inr hd) he

/-- C91: the retired instructions and the transfers of control between them are an execution of the program from the reset
state; the committed register map gives that execution's registers. -/
theorem C91_refines (hA : 0 < A) (hAP : A ≤ P) (wf : WfProg prog A) (h : Reach prog P A N (State.init P A w prf pc m) s) :
    Runs prog ⟨pc, prf, m⟩ s.past s.isa ∧ ∀ a, a < A → s.prf (s.ren.regs.arch a) = s.isa.regs a :=
  ⟨(inv_reach hA hAP wf h).runs, (inv_reach hA hAP wf h).regs⟩

/-- An execution is determined by the transfers of control: the program and the state fix everything else. -/
theorem C91_determined {σ τ υ : Isa M} {l : List (Item M)} (h1 : Runs prog σ l τ) (h2 : Runs prog σ l υ) : τ = υ := by
  induction h1 with
  | nil => cases h2; rfl
  | inst _ ih => cases h2 with | inst h => exact ih h
  | jump _ _ _ ih => cases h2 with | jump _ _ h => exact ih h

/-- Two cores, with different widths, sizes, schedules and predictions, that retired the same number of instructions between
the same transfers of control, retired the same instructions and have the same registers. -/
theorem C91_schedule_free {P' w' N' : Nat} {prf' : Nat → W} {s' : State M} (hA : 0 < A) (hAP : A ≤ P) (hAP' : A ≤ P') (wf : WfProg prog A)
    (h : Reach prog P A N (State.init P A w prf pc m) s) (h' : Reach prog P' A N' (State.init P' A w' prf' pc m) s')
    (h0 : prf = prf')
    (hp : s.past.map (fun i => match i with | .inst _ => none | .jump p g => some (p, g)) =
      s'.past.map (fun i => match i with | .inst _ => none | .jump p g => some (p, g))) :
    s.past = s'.past ∧ ∀ a, a < A → s.prf (s.ren.regs.arch a) = s'.prf (s'.ren.regs.arch a) := by
  obtain ⟨r1, v1⟩ := C91_refines hA hAP wf h
  obtain ⟨r2, v2⟩ := C91_refines hA hAP' wf h'
  subst h0
  have key : ∀ {σ τ υ : Isa M} {l l' : List (Item M)}, Runs prog σ l τ → Runs prog σ l' υ →
      l.map (fun i => match i with | .inst _ => none | .jump p g => some (p, g)) =
        l'.map (fun i => match i with | .inst _ => none | .jump p g => some (p, g)) → l = l' ∧ τ = υ := by
    intro σ τ υ l l' h1
    induction h1 generalizing l' υ with
    | nil => intro h2 e; cases h2 with
      | nil => exact ⟨rfl, rfl⟩
      | inst _ => simp at e
      | jump _ _ _ => simp at e
    | inst _ ih => intro h2 e; cases h2 with
      | nil => simp at e
      | inst h =>
        rw [List.map_cons, List.map_cons, List.cons.injEq] at e
        obtain ⟨a, b⟩ := ih h e.2
        exact ⟨by rw [a], b⟩
      | jump _ _ _ => simp at e
    | jump p g _ ih => intro h2 e; cases h2 with
      | nil => simp at e
      | inst _ => simp at e
      | jump p' g' h =>
        rw [List.map_cons, List.map_cons, List.cons.injEq, Option.some.injEq, Prod.mk.injEq] at e
        obtain ⟨⟨rfl, rfl⟩, e⟩ := e
        obtain ⟨a, b⟩ := ih h e
        exact ⟨by rw [a], b⟩
  obtain ⟨e1, e2⟩ := key r1 r2 hp
  exact ⟨e1, fun a ha => by rw [v1 a ha, v2 a ha, e2]⟩

/-! ### A concrete run

`0: x1 := 5`, `4: x2 := x1 + 1`, `8: if x2 = 6 goto 16` (predicted not taken), `12: x3 := 99`, `16: x3 := x1 + x2`,
`20:` a serialising instruction that counts in the external state.  Two instructions per cycle, eight physical registers. -/

namespace CoreRun

def nop : Sem Nat := ⟨false, 0, false, 0, false, 0, false, false, fun _ _ _ => 0#32, fun _ _ _ => 0#32, fun m _ _ => m⟩

def prg (p : W) : Sem Nat :=
  let i : Sem Nat := { nop with next := fun _ _ _ => p + 4#32 }
  if p = 0#32 then { i with destEn := true, areg := 1, value := fun _ _ _ => 5#32 }
  else if p = 4#32 then { i with destEn := true, areg := 2, use1 := true, src1 := 1, value := fun _ a _ => a + 1#32 }
  else if p = 8#32 then { i with isBr := true, use1 := true, src1 := 2, next := fun _ a _ => if a = 6#32 then 16#32 else 12#32 }
  else if p = 12#32 then { i with destEn := true, areg := 3, value := fun _ _ _ => 99#32 }
  else if p = 16#32 then { i with destEn := true, areg := 3, use1 := true, src1 := 1, use2 := true, src2 := 2, value := fun _ a b => a + b }
  else if p = 20#32 then { i with serial := true, effect := fun m _ _ => m + 1 }
  else i

inductive Step where
  | cyc (ready flush : Bool) (retire : Nat) (mispred : Option Nat) (clear : Option Nat) (dec : List (Option Fetched)) (target : W)
  | run (i : Nat)
  | write (i : Nat)

def Step.cycle (ready flush : Bool) (retire : Nat) (mispred : Option Nat) (clear : Option Nat) (dec : List (Option Fetched))
    (target : W) : Cyc Nat :=
  ⟨ready, flush, false, false, retire, mispred, fun t => clear == some t, dec, target, id⟩

instance decPath (a : W) : (l : List (Option Fetched)) → Decidable (Path a l)
  | [] => .isTrue trivial
  | none :: r => decPath a r
  | some f :: r => by
    unfold Path
    exact @instDecidableAnd _ _ _ (decPath f.pn r)

def serialOk (flush : Bool) : List Task → Bool
  | [] => true
  | k :: r => (!(prg k.pc).serial || (r.isEmpty && flush)) && serialOk flush r

theorem serialOk_sound (flush : Bool) : ∀ (l : List Task), serialOk flush l = true → ∀ pre k post, l = pre ++ k :: post →
    (prg k.pc).serial = true → post = [] ∧ flush = true
  | [], _, pre, k, post, e, _ => by simp at e
  | j :: r, h, [], k, post, e, hs => by
    rw [List.nil_append, List.cons.injEq] at e
    obtain ⟨rfl, rfl⟩ := e
    rw [serialOk, hs, Bool.and_eq_true] at h
    simpa using h.1
  | j :: r, h, i :: pre, k, post, e, hs => by
    rw [List.cons_append, List.cons.injEq] at e
    have h2 : serialOk flush r = true := by rw [serialOk, Bool.and_eq_true] at h; exact h.2
    exact serialOk_sound flush r h2 pre k post e.2 hs

abbrev chkRen (s : State Nat) (c : Cyc Nat) : Prop :=
  (∀ t ∈ c.mispred, c.retire = 0 ∧ c.flush = false ∧ ∃ e ∈ s.ren.win, e.tag = some t) ∧
  c.exc = false ∧ c.interrupt = false ∧
  (∀ o ∈ c.dec, ∀ f ∈ o, WfInst 4 4 (toInst prg f)) ∧
  (slotTags (toInput prg c).dec).Nodup ∧
  (∀ t ∈ slotTags (toInput prg c).dec, ∀ e ∈ (stepSys 8 4 4 s.ren (toInput prg c)).win, e.tag ≠ some t)

instance (i : Inst) : Decidable (WfInst 4 4 i) := by unfold WfInst; exact inferInstance

abbrev chk (s : State Nat) (c : Cyc Nat) : Prop :=
  chkRen s c ∧
  (∀ k ∈ retired s c, k.done = true ∧ ((prg k.pc).isBr = true → k.act = k.pn)) ∧
  serialOk c.flush (retired s c) = true ∧
  (∀ t ∈ c.mispred, ∀ k ∈ s.tasks, k.e.tag = some t → k.done = true) ∧
  Path s.expect c.dec ∧
  (∀ o ∈ c.dec, ∀ f ∈ o, (prg f.pc).isBr = false → f.pn = f.pc + 4#32)

theorem plain_next (p : W) (h : (prg p).isBr = false) : ∀ m a b, (prg p).next m a b = p + 4#32 := by
  intro m a b
  unfold prg at h ⊢
  dsimp only at h ⊢
  repeat' split
  all_goals first | rfl | simp_all

theorem chk_sound (s : State Nat) (c : Cyc Nat) (h : chk s c) : Verif.Core.Valid prg 8 4 4 s c := by
  obtain ⟨⟨h1, h2, h3, h4, h5, h6⟩, g1, g2, g3, g4, g5⟩ := h
  refine ⟨⟨?_, ?_, ?_, h5, h6⟩, g1, serialOk_sound _ _ g2, fun t ht => g3 t ht, fun _ => g4, ?_⟩
  · exact fun t ht => h1 t ht
  · rintro (h | h)
    · exact absurd (show c.exc = true from h) (by rw [h2]; exact Bool.false_ne_true)
    · exact absurd (show c.interrupt = true from h) (by rw [h3]; exact Bool.false_ne_true)
  · intro d hd
    obtain ⟨o, ho, he⟩ := List.mem_map.1 (show some d ∈ c.dec.map (Option.map (toInst prg)) from hd)
    cases o with
    | none => simp at he
    | some f =>
      rw [Option.map_some, Option.some.injEq] at he
      rw [← he]; exact h4 _ ho f rfl
  · intro f hf hb _ m a b
    rw [plain_next _ hb]; exact (g5 _ hf f rfl hb).symm

instance (l : List Task) (p : Nat) : Decidable (Settled l p) := by unfold Settled; exact inferInstance

abbrev canRun (pre : List Task) (k : Task) : Prop :=
  k.done = false ∧ ((prg k.pc).use1 = true → Settled pre k.p1) ∧ ((prg k.pc).use2 = true → Settled pre k.p2)

def drive1 (s : State Nat) : Step → Option (State Nat)
  | .cyc a b c d e f g => if chk s (Step.cycle a b c d e f g) then some (cycle prg 8 4 4 s (Step.cycle a b c d e f g)) else none
  | .run i => match s.tasks.drop i with
    | [] => none
    | k :: post => if canRun (s.tasks.take i) k then some (finish prg s (s.tasks.take i) k post) else none
  | .write i => match s.tasks.drop i with
    | [] => none
    | k :: post => if canRun (s.tasks.take i) k then some (write prg s (s.tasks.take i) k post) else none

def drive (s : State Nat) : List Step → Option (State Nat)
  | [] => some s
  | x :: r => (drive1 s x).bind (drive · r)

theorem drive1_reach {s0 s t : State Nat} (h : Verif.Core.Reach prg 8 4 4 s0 s) (x : Step) (e : drive1 s x = some t) :
    Verif.Core.Reach prg 8 4 4 s0 t := by
  cases x with
  | cyc a b c d e' f g =>
    unfold drive1 at e
    dsimp only at e
    split at e
    · rename_i hc
      rw [← Option.some.inj e]; exact .cycle _ h (chk_sound _ _ hc)
    · simp at e
  | run i =>
    unfold drive1 at e
    dsimp only at e
    split at e
    · simp at e
    · rename_i k post hk
      split at e
      · rename_i hc
        rw [← Option.some.inj e]
        exact .run h (by rw [← hk, List.take_append_drop]) ⟨hc.1, hc.2.1, hc.2.2⟩
      · simp at e
  | write i =>
    unfold drive1 at e
    dsimp only at e
    split at e
    · simp at e
    · rename_i k post hk
      split at e
      · rename_i hc
        rw [← Option.some.inj e]
        exact .write h (by rw [← hk, List.take_append_drop]) ⟨hc.1, fun h => .inl (hc.2.1 h), fun h => .inl (hc.2.2 h)⟩
      · simp at e

theorem drive_reach {s0 : State Nat} : ∀ (l : List Step) {s t : State Nat}, Verif.Core.Reach prg 8 4 4 s0 s → drive s l = some t →
    Verif.Core.Reach prg 8 4 4 s0 t
  | [], _, _, h, e => by rw [← Option.some.inj e]; exact h
  | x :: r, s, t, h, e => by
    rw [drive, Option.bind_eq_some_iff] at e
    obtain ⟨u, e1, e2⟩ := e
    exact drive_reach r (drive1_reach h x e1) e2

def start : State Nat := State.init 8 4 2 (fun _ => 0#32) 0#32 0

/-- The wrong-path instruction at 12 runs before the branch at 8. -/
def part1 : List Step :=
  [.cyc true false 0 none none [some ⟨0#32, 4#32, 0⟩, some ⟨4#32, 8#32, 0⟩] 0#32,
   .cyc true false 0 none none [some ⟨8#32, 12#32, 1⟩, some ⟨12#32, 16#32, 0⟩] 0#32,
   .cyc true false 0 none none [some ⟨16#32, 20#32, 0⟩, none] 0#32,
   .run 3, .run 0, .run 1, .run 2]
def part2 : List Step :=
  [.cyc true false 0 (some 1) (some 1) [] 0#32,
   .cyc true false 2 none none [some ⟨16#32, 20#32, 0⟩, some ⟨20#32, 24#32, 0⟩] 0#32,
   .cyc true false 1 none none [] 0#32,
   .run 0, .run 1]
def part3 : List Step := [.cyc true true 2 none none [] 24#32]

def view (s : State Nat) : List (W × Bool × W) × List W × List W × W × Nat :=
  (s.tasks.map fun k => (k.pc, k.done, s.prf k.e.preg), (List.range 4).map (fun a => s.prf (s.ren.regs.arch a)),
    s.past.map (fun i => match i with | .inst p => p | .jump p _ => p), s.isa.pc, s.isa.ext)

theorem run1 : ((drive start part1).map view) =
    some ([(0#32, true, 5#32), (4#32, true, 6#32), (8#32, true, 0#32), (12#32, true, 99#32)], [0#32, 0#32, 0#32, 0#32], [], 0#32, 0) := by
  decide +kernel

theorem run2 : ((drive start (part1 ++ part2)).map view) =
    some ([(16#32, true, 11#32), (20#32, true, 0#32)], [0#32, 5#32, 6#32, 0#32], [0#32, 4#32, 8#32], 16#32, 0) := by
  decide +kernel

theorem run3 : ((drive start (part1 ++ part2 ++ part3)).map view) =
    some ([], [0#32, 5#32, 6#32, 11#32], [0#32, 4#32, 8#32, 16#32, 20#32, 24#32], 24#32, 1) := by
  decide +kernel

theorem prg_wf : WfProg prg 4 := by
  intro p
  unfold prg
  dsimp only
  repeat' split
  all_goals simp [nop]

/-- The hypotheses of C90 and C91 hold of these runs. -/
example : ∃ s, drive start (part1 ++ part2) = some s ∧ Verif.Core.Reach prg 8 4 4 start s ∧ s.tasks.length = 2 := by
  have h : ((drive start (part1 ++ part2)).map fun s => s.tasks.length) = some 2 := by decide +kernel
  obtain ⟨s, hs, hl⟩ := Option.map_eq_some_iff.1 h
  exact ⟨s, hs, drive_reach _ .init hs, hl⟩

example : ∃ s, drive start (part1 ++ part2 ++ part3) = some s ∧ Runs prg ⟨0#32, fun _ => 0#32, 0⟩ s.past s.isa := by
  have h : ((drive start (part1 ++ part2 ++ part3)).map fun s => s.tasks.length) = some 0 := by decide +kernel
  obtain ⟨s, hs, _⟩ := Option.map_eq_some_iff.1 h
  exact ⟨s, hs, (C91_refines (by decide) (by decide) prg_wf (drive_reach _ .init hs)).1⟩

/-- The results of 0 and 4 are written, and used by the branch, before these instructions have run (C90_written). -/
example : ((drive start (part1.take 3 ++ [.write 0, .write 1, .run 2])).map fun s =>
    s.tasks.map fun k => (k.done, k.wrote, s.prf k.e.preg, k.act)) =
    some [(false, true, 5#32, 0#32), (false, true, 6#32, 0#32), (true, false, 0#32, 16#32), (false, false, 0#32, 0#32)] := by
  decide +kernel

/-- An operation that outlives the flush that removed its instruction (C45) breaks C91.  The instruction at 12 was removed by
the misprediction and its physical register, 6, was given to the one at 16; when the operation of 12 delivers its result
after that of 16, and then 16 retires, the committed `x3` is 99. -/
def late : Option (State Nat) :=
  (drive start (part1 ++ part2)).bind fun s => drive { s with prf := upd s.prf 6 99#32 } part3

theorem C91_needs_flushed : (late.map view) =
    some ([], [0#32, 5#32, 6#32, 99#32], [0#32, 4#32, 8#32, 16#32, 20#32, 24#32], 24#32, 1) := by
  decide +kernel

/-- A run that retires a branch with the wrong successor is not valid: the check refuses it. -/
example : (drive start (part1 ++ [.cyc true false 4 none none [] 0#32])).isNone = true := by decide +kernel

end CoreRun

end Verif.Props

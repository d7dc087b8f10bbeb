import Verif.Proofs.Oracle
import Verif.Proofs.OracleRef
import Verif.Props.HandOff
import Verif.Props.RefTrap

/-!
C117: without the branch predictor the core is fed by an oracle: what it decodes between two redirects is what a reference machine
executes, and the predictions are right.
-/
namespace Verif.Props
open Verif.HandOff Verif.Oracle
open Verif.Front (W32 Out)

section
variable {W : Nat} {M : Machine} {MI N : Nat}

/-- C117: all that has been handed over since the last redirect is what the machine executes from there on: every instruction at
the machine's address, with the machine's word, with the successor the machine goes to; nothing behind an instruction that traps
or is a CSR instruction; nothing lost or doubled from one group to the next. -/
theorem C117_trace (hM : M.Sane) {del : List Insn} {t : Sys M W} (h : Sys.Reach M MI N del t) : Follows M t.start del t.s.m :=
  (inv_reach hM h).path

/-- C117, in part: what the core has decoded since the last redirect, with what waits, is the beginning of it.  Missing: that the
machine starts in the state the core has reached by retiring instructions; registers, status and address agree (`C117_start`),
memory need not (`C117_memory_fails`). -/
theorem C117_decoded_partial (hM : M.Sane) {del : List Insn} {t : Sys M W} (h : Sys.Reach M MI N del t) :
    ∃ m, Follows M t.start ((t.o.got ++ t.o.q.wait).map Insn.of) m := by
  obtain ⟨h1, h2⟩ := C111_oracle (reach_hand h)
  cases hr : t.o.bo.redirect with
  | true =>
    obtain ⟨a, b⟩ := h1 hr
    rw [a, b]
    exact ⟨_, .nil _⟩
  | false =>
    have := C117_trace hM h
    rw [← h2 hr, ← List.map_append] at this
    exact this.prefix

/-- C117: a redirect sends the machine to its address, with the registers of the core's mirror and with the status and privilege
the core reports; without a redirect the machine runs on. -/
theorem C117_start (hM : M.Sane) {t t' : Sys M W} {i : In} {c : Back} {out : Option (Out W Nat)}
    (h : t.cycle M MI N i c = some (t', out)) :
    (t.o.bo.redirect = false → t'.start = t.start) ∧
    (t.o.bo.redirect = true → M.pc t'.start = t.o.bo.pc ∧ (∀ r < 32, (M.get t'.start).1.gpr r = i.dut.gpr r) ∧
      ∀ q, i.status = some q → (M.get t'.start).2 = q.priv ∧ (M.get t'.start).1.csr .mstatus = q.mstatus ∧
        (M.get t'.start).1.csr .sstatus = q.sstatus ∧ (M.get t'.start).1.csr .satp = q.satp) := by
  have hs : t'.start = if t.o.bo.redirect then restart M { i with refetch := t.o.bo.redirect, addr := t.o.bo.pc } t.s.m else t.start := by
    unfold Sys.cycle at h
    simp only [Option.bind_eq_bind] at h
    split at h <;>
    · rw [Option.bind_eq_some_iff] at h
      obtain ⟨⟨s, o⟩, _, h⟩ := h
      rw [Option.bind_eq_some_iff] at h
      obtain ⟨q, _, h⟩ := h
      simp only [Option.pure_def, Option.some.injEq, Prod.mk.injEq] at h
      obtain ⟨rfl, _⟩ := h
      rfl
  refine ⟨fun hr => by rw [hs, hr]; rfl, fun hr => ?_⟩
  rw [hs, if_pos hr]
  exact restart_get hM { i with refetch := t.o.bo.redirect, addr := t.o.bo.pc } t.s.m

/-- C117: unless it waits for a redirect, the oracle hands over at least one instruction per call. -/
theorem C117_progress (hM : M.Sane) (hW : 0 < W) {i : In} {s s' : St M} {out : Option (Out W Nat)}
    (h : call M W false i s = some (s', out)) (hs : i.refetch = true ∨ (s.stall = false ∧ (M.info s.m).simEnd = false)) :
    ∃ o, out = some o ∧ insnsOf o ≠ [] := by
  unfold call at h
  simp only at h
  rw [if_neg (by rcases hs with hs | ⟨hs, he⟩ <;> simp [hs] <;> intro hq <;> simp [hq, he])] at h
  obtain ⟨⟨l, m', b⟩, h1, h2⟩ := Option.map_eq_some_iff.mp h
  simp only [Prod.mk.injEq] at h2
  obtain ⟨-, rfl⟩ := h2
  obtain ⟨a1, _, a3, _, _, a6⟩ := fill_follows hM h1
  exact ⟨_, rfl, by rw [upTo_toOut a3 a1]; simpa using a6 hW⟩

/-- C117: the reference of the repository is such a machine, and each of its steps that does not trap jumps or goes to the next
instruction, except that a floating-point instruction it has no case for stays where it is (the finding of C84). -/
theorem C117_reference (F : Fp.SoftFloat) : (refMachine F).Sane ∧
    ∀ now m m', (refMachine F).step now m = some m' → ((refMachine F).info m').exc = false → m'.1.illegal = false →
      Goes (refMachine F) m m' :=
  ⟨refMachine_sane F, fun _ _ _ h => ref_goes h⟩

end

/-! ### A run -/

namespace OracleRun
open HandOffRun (Do)
open RefRun (mem noFloat)
open Verif.RefCpu.Proofs (noIrq)

abbrev M : Machine := refMachine noFloat

/-- `addi x5, x0, 1`; `amoadd.w x6, x5, (x7)`; `beq x6, x0, +16`; at the target, `csrrs x8, mepc, x0`; `beq x5, x0, +8`. -/
def prog : List (BitVec 32 × BitVec 32) :=
  [(0x80000000#32, 0x00100293#32), (0x80000004#32, 0x0053A32F#32), (0x80000008#32, 0x00030863#32), (0x8000000c#32, 0x13#32),
    (0x80000018#32, 0x34102473#32), (0x8000001c#32, 0x00028463#32), (0x80000020#32, 0x34102473#32)]

def s0 : RefCpu.State :=
  { mem := mem 0xffffffff#64 prog
    gpr := fun n => if n = 7 then 0x80001000#32 else 0#32
    pc := 0x80000000#32
    file := fun _ => 0#32
    priv := 3
    inst := 0x13#32
    irq := noIrq
    pfInst := false
    pfLoad := false
    pfStore := false
    illegal := false
    simEnd := false }

def m0 : M.S := (s0, ⟨0x13#32, false, false, false, false, false, false, false⟩)

/-- What the core reports: M-mode; its mirror holds the registers `g`. -/
def inp (g : Nat → W32) : In := ⟨false, 0#32, some ⟨0#32, 0#32, 0#32, 3⟩, { toCpu s0 with gpr := g }, 5⟩

def go : List (Do × (Nat → W32)) → List Insn × Sys M 4 → Option (List Insn × Sys M 4)
  | [], x => some x
  | (d, g) :: l, (del, t) =>
    if d.ok t.o.q then (t.cycle M 8 4 (inp g) d.back).bind fun y => go l (odeliver t.o y.2 del, y.1) else none

theorem valid {q : FetchWindow.Sys} {d : Do} {b : Slots 4 Nat} (h : d.ok q = true) : FetchWindow.Valid q (window b d.back) := by
  cases d with
  | work f r =>
    simp only [Do.ok, Bool.and_eq_true, decide_eq_true_eq] at h
    exact ⟨h.1, h.2, fun p hp => (by cases hp)⟩
  | mispred p pc =>
    simp only [Do.ok, decide_eq_true_eq] at h
    refine ⟨Nat.zero_le _, Nat.zero_le _, fun p' hp => ?_⟩
    cases hp
    exact ⟨h, rfl⟩
  | flush r pc =>
    simp only [Do.ok, decide_eq_true_eq] at h
    exact ⟨Nat.zero_le _, h, fun p hp => (by cases hp)⟩

theorem go_run {l : List (Do × (Nat → W32))} {x y : List Insn × Sys M 4} (h : Sys.Reach M 8 4 x.1 x.2) (e : go l x = some y) :
    Sys.Reach M 8 4 y.1 y.2 := by
  induction l generalizing x with
  | nil => simp only [go, Option.some.injEq] at e; subst e; exact h
  | cons d l ih =>
    obtain ⟨del, t⟩ := x
    obtain ⟨d, g⟩ := d
    rw [go] at e
    split at e
    · rename_i hok
      rw [Option.bind_eq_some_iff] at e
      obtain ⟨⟨t', out⟩, e1, e2⟩ := e
      exact ih (.step _ _ h e1 (valid hok)) e2
    · cases e

def start0 : List Insn × Sys M 4 := ([], ⟨{ q := ⟨PreIdu.init, [], []⟩ }, ⟨m0, false⟩, m0⟩)

/-- What has been handed over, as addresses and predicted successors; the addresses decoded; whether the oracle waits. -/
def look (x : List Insn × Sys M 4) : List (W32 × W32) × List W32 × Bool :=
  (x.1.map fun i => (i.pc, i.pn), x.2.o.got.map (·.entry.pc), x.2.s.stall)

theorem reached {l : List (Do × (Nat → W32))} {z : List (W32 × W32) × List W32 × Bool} (h : (go l start0).map look = some z) :
    ∃ y, Sys.Reach M 8 4 y.1 y.2 ∧ look y = z := by
  obtain ⟨y, hy, rfl⟩ := Option.map_eq_some_iff.mp h
  exact ⟨y, go_run (.init _) hy, rfl⟩

def none' : Nat → W32 := s0.gpr

/-- Three cycles; one instruction is decoded in each of the last two. -/
def first : List (Do × (Nat → W32)) := [(.work 0 0, none'), (.work 1 0, none'), (.work 1 0, none')]

/-- After one group the core throws everything away, with nothing retired, and starts again at the beginning (as it does when an
interrupt returns). -/
def again : List (Do × (Nat → W32)) := [(.work 0 0, none'), (.flush 0 0x80000000#32, none'), (.work 0 0, none')]

/-- The four instructions retire, the CSR instruction redirects to its successor; the mirror holds `g`. -/
def onward (g : Nat → W32) : List (Do × (Nat → W32)) :=
  first ++ [(.work 2 0, none'), (.flush 4 0x8000001c#32, none'), (.work 0 0, g)]

/-- The registers after the four instructions. -/
def after : Nat → W32 := fun n => if n = 7 then 0x80001000#32 else if n = 5 then 1#32 else 0#32

end OracleRun

set_option maxRecDepth 100000 in
open OracleRun in
/-- The loop-free start of the program: up to the taken branch in one group, the CSR instruction at its target in the next, then
nothing more. -/
example : M.Sane ∧ ∃ y, Sys.Reach M 8 4 y.1 y.2 ∧
    look y = ([(0x80000000#32, 0x80000004#32), (0x80000004#32, 0x80000008#32), (0x80000008#32, 0x80000018#32),
      (0x80000018#32, 0x8000001c#32)], [0x80000000#32, 0x80000004#32], true) :=
  ⟨refMachine_sane _, reached (l := first) (by decide +kernel)⟩

set_option maxRecDepth 100000 in
open OracleRun in
/-- C117, a redirect with an up-to-date mirror: the branch behind the CSR instruction is not taken, x5 is 1. -/
example : ∃ y, Sys.Reach M 8 4 y.1 y.2 ∧ look y = ([(0x8000001c#32, 0x80000020#32), (0x80000020#32, 0x80000024#32)], [], true) :=
  reached (l := onward after) (by decide +kernel)

/-! ### Where it falls short

A redirect sets the machine's registers, not its memory; and the mirror `dut_cpu` is only kept up to date by the comparison with the
reference. -/

set_option maxRecDepth 100000 in
open OracleRun in
/-- C117 fails for memory: the machine has executed the atomic addition ahead of the core; when the core comes back to it, having
retired nothing, with the same registers, the machine executes it a second time on its own memory, and predicts the branch behind
it wrongly. -/
theorem C117_memory_fails : ∃ y y' : List Insn × Sys M 4,
    Sys.Reach M 8 4 y.1 y.2 ∧ Sys.Reach M 8 4 y'.1 y'.2 ∧ go again start0 = some y' ∧
    M.pc y'.2.start = M.pc y.2.start ∧ (∀ r < 32, (M.get y'.2.start).1.gpr r = (M.get y.2.start).1.gpr r) ∧
    y.1.map (fun i => (i.pc, i.pn)) =
      [(0x80000000#32, 0x80000004#32), (0x80000004#32, 0x80000008#32), (0x80000008#32, 0x80000018#32)] ∧
    (y'.1.map (fun i => (i.pc, i.pn))).take 3 =
      [(0x80000000#32, 0x80000004#32), (0x80000004#32, 0x80000008#32), (0x80000008#32, 0x8000000c#32)] := by
  have h1 : (go [(.work 0 0, none')] start0).map (fun x => (x.1.map (fun i => (i.pc, i.pn)), M.pc x.2.start,
      (List.range 32).all fun r => (M.get x.2.start).1.gpr r == s0.gpr r)) =
      some ([(0x80000000#32, 0x80000004#32), (0x80000004#32, 0x80000008#32), (0x80000008#32, 0x80000018#32)], 0x80000000#32, true) := by
    decide +kernel
  have h2 : (go again start0).map (fun x => ((x.1.map (fun i => (i.pc, i.pn))).take 3, M.pc x.2.start,
      (List.range 32).all fun r => (M.get x.2.start).1.gpr r == s0.gpr r)) =
      some ([(0x80000000#32, 0x80000004#32), (0x80000004#32, 0x80000008#32), (0x80000008#32, 0x8000000c#32)], 0x80000000#32, true) := by
    decide +kernel
  obtain ⟨y, e1, q1⟩ := Option.map_eq_some_iff.mp h1
  obtain ⟨y', e2, q2⟩ := Option.map_eq_some_iff.mp h2
  simp only [Prod.mk.injEq, List.all_eq_true, List.mem_range, beq_iff_eq] at q1 q2
  exact ⟨y, y', go_run (.init _) e1, go_run (.init _) e2, e2, q2.2.1.trans q1.2.1.symm,
    fun r hr => (q2.2.2 r hr).trans (q1.2.2 r hr).symm, q1.1, q2.1⟩

set_option maxRecDepth 100000 in
open OracleRun in
/-- C117 fails if the mirror is not kept up to date (the comparison with the reference is off): the same redirect throws x5 back to
its old value, and the branch is predicted taken. -/
theorem C117_mirror_fails : ∃ y, Sys.Reach M 8 4 y.1 y.2 ∧ go (onward none') start0 = some y ∧
    look y = ([(0x8000001c#32, 0x80000024#32)], [], false) := by
  have h : (go (onward none') start0).map look = some ([(0x8000001c#32, 0x80000024#32)], [], false) := by decide +kernel
  obtain ⟨y, e, q⟩ := Option.map_eq_some_iff.mp h
  exact ⟨y, go_run (.init _) e, e, q⟩

set_option maxRecDepth 100000 in
open OracleRun in
/-- C117 fails with `CONFIG_ORACLE_STEADY_FETCH_WIDTH`: the group goes on behind a taken branch, but has only one address for the
successor of its taken branches, and that is where the whole group ends. -/
theorem C117_steady_fails : ∃ s' o, call M 8 true (inp none') ⟨m0, false⟩ = some (s', some o) ∧
    o.valid 2 = true ∧ o.valid 3 = true ∧ o.dir 2 = true ∧ o.pc 3 = 0x80000018#32 ∧ o.next = 0x8000001c#32 := by
  have h : (call M 8 true (inp none') ⟨m0, false⟩).bind (fun x => x.2.map fun o => (o.valid 2, o.valid 3, o.dir 2, o.pc 3, o.next)) =
      some (true, true, true, 0x80000018#32, 0x8000001c#32) := by decide +kernel
  obtain ⟨⟨s', out⟩, e, q⟩ := Option.bind_eq_some_iff.mp h
  cases out with
  | none => cases q
  | some o =>
    simp only [Option.map_some, Option.some.injEq, Prod.mk.injEq] at q
    exact ⟨s', o, e, q⟩

end Verif.Props

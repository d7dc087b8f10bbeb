import Verif.Proofs.Total
/-
C127: the back end runs the program to the end.  With values, the issue queues and the wake-up bus joined, and nothing assumed of the
announcements but that units meet their latency: what retires is the execution of the sequential machine, and in a fair run it
goes on as long as there is something in flight.
-/
namespace Verif.Props
open Verif.Spine Verif.Total Verif.SpineProofs Verif.TotalProofs
open Verif.Core (W Sem Isa Item WfProg)
open Verif.CoreRef (Runnable refRun)
open Verif.Spec.ByteMem (Mem)
open Verif.Waker (Alu)
open Verif.Alive (Sized)

section
variable {n : Nat} {M : Type} {prog : W → Sem M} {k : Waker.Cfg} {prf : Nat → W} {pc : W} {m : M} {s : Total.State n M}

/-- C127: when a result has been announced, its physical register holds the value that the sequential machine has in the destination
after the instruction. -/
theorem C127_announced (hk : Good k.sc.sp) (ha : Alu k) (wf : WfProg prog k.sc.sp.A) (h : Total.Reach prog k (Total.init n k prf pc m) s)
    {c : Total.Input n M} (hv : Total.Valid prog k s c) {u : Nat} (hu : u ∈ robIds k.sc.sp s.o.w.sp) (hann : s.o.ann u = true) :
    s.o.w.prf (s.o.w.sp.info u).preg = (Whole.isaAfter prog s.o.w (Whole.older k.sc.sp s.o.w u ++ [u])).regs (s.o.w.sp.info u).areg := by
  obtain ⟨h1, h2, h3⟩ := TotalProofs.reach hk ha h
  obtain ⟨hw, _, J⟩ := OooProofs.reach hk h2
  obtain ⟨hd, hf, _⟩ := J.rob u hu
  have he : (s.o.w.sp.info u).destEn = true := by rw [← hf, hd.destEn]; exact h3 u hu hann
  rcases honest hk ha (ProgressProofs.base h1) h3 hv u hu hann with hx | hx
  · exact (C110_results hk wf hw (List.mem_append_left _ hu) hx).2 he
  · exact C110_written hk wf hw (List.mem_append_left _ hu) hx he

/-- C127: an instruction whose operations have been issued reads the values a sequential machine has after the older instructions in
flight. -/
theorem C127_operands (hk : Good k.sc.sp) (ha : Alu k) (wf : WfProg prog k.sc.sp.A) (h : Total.Reach prog k (Total.init n k prf pc m) s)
    {u : Nat} (hu : Ooo.MayRun k.sc s.o u) :
    Whole.arg1 prog s.o.w u = (prog (s.o.w.pay u).1).arg1 (Whole.isaAfter prog s.o.w (Whole.older k.sc.sp s.o.w u)).regs ∧
    Whole.arg2 prog s.o.w u = (prog (s.o.w.pay u).1).arg2 (Whole.isaAfter prog s.o.w (Whole.older k.sc.sp s.o.w u)).regs :=
  C122_operands hk wf (TotalProofs.reach hk ha h).2.1 hu

/-- C127: what has retired is an execution of the program, and the committed registers are its registers. -/
theorem C127_refines (hk : Good k.sc.sp) (ha : Alu k) (wf : WfProg prog k.sc.sp.A) (h : Total.Reach prog k (Total.init n k prf pc m) s) :
    Core.Runs prog ⟨pc, prf, m⟩ s.o.w.past s.o.w.isa ∧
      ∀ a, a < k.sc.sp.A → s.o.w.prf (s.o.w.sp.regs.arch a) = s.o.w.isa.regs a :=
  C122_refines hk wf (TotalProofs.reach hk ha h).2.1

end

section
variable {n : Nat} {text : W → W} {k : Waker.Cfg} {prf : Nat → W} {pc : W} {m : Mem} {s : Total.State n Mem}

/-- C127 on machine words: the reference model called once for every instruction retired agrees. -/
theorem C127_reference (hk : Good k.sc.sp) (ha : Alu k) (h : Total.Reach (Whole.machine text) k (Total.init n k prf pc m) s)
    (hi : ∀ i ∈ s.o.w.past, ∃ p, i = .inst p) (hg : Runnable text s.o.w.past.length ⟨pc, prf, m⟩)
    {r : RefCpu.State} (hr : CoreRef.Agrees ⟨pc, prf, m⟩ r) (F : Fp.SoftFloat) (e : Nat → RefCpu.Env) :
    ∃ r', refRun F e s.o.w.past.length r = some r' ∧ (∀ a, a < 32 → r'.gpr a = s.o.w.prf (s.o.w.sp.regs.arch a)) ∧
      r'.pc = s.o.w.isa.pc ∧ RefMem.view r'.mem = s.o.w.isa.ext :=
  C122_reference hk (TotalProofs.reach hk ha h).2.1 hi hg hr F e

end

/-! ### Endless runs -/

section
variable {n : Nat} {M : Type} {prog : W → Sem M} {k : Waker.Cfg} {prf : Nat → W} {pc : W} {m : M}
  {s a : Nat → Total.State n M} {c : Nat → Total.Input n M}

theorem total_reach (R : Total.Run prog k (Total.init n k prf pc m) s a c) : ∀ t, Total.Reach prog k (Total.init n k prf pc m) (s t) ∧
    Total.Reach prog k (Total.init n k prf pc m) (a t)
  | 0 => by
    have h : Total.Reach prog k (Total.init n k prf pc m) (s 0) := by rw [R.init]; exact .init
    exact ⟨h, .acts h (R.acts 0)⟩
  | t + 1 => by
    have h := Total.Reach.cycle (c t) (total_reach R t).2 (R.valid t) (R.step t)
    exact ⟨h, .acts h (R.acts (t + 1))⟩

theorem total_alive (R : Total.Run prog k (Total.init n k prf pc m) s a c) :
    Alive.Run k (fun t => waker (s t)) (fun t => wcyc (c t)) where
  init := by rw [R.init]; rfl
  valid t := by have := (R.valid t).bus; rw [acts_waker (R.acts t)] at this; exact this
  step t := by
    obtain ⟨_, _, h, _⟩ := TotalProofs.cycle_some (R.step t)
    rw [acts_waker (R.acts t)] at h; exact h

theorem acts_past {s s' : Total.State n M} (h : Acts prog k s s') : s'.o.w.past = s.o.w.past ∧ s'.o.w.pay = s.o.w.pay := by
  induction h with
  | refl => exact ⟨rfl, rfl⟩
  | run _ _ ih => exact ih
  | write _ _ ih => exact ih

/-- What a cycle adds to the execution. -/
theorem adds (R : Total.Run prog k (Total.init n k prf pc m) s a c) (t : Nat) :
    let rt := retired (s t).o.w.sp (Alive.hw k (waker (s t)) (wcyc (c t)))
    let hw := Alive.hw k (waker (s t)) (wcyc (c t))
    (s (t + 1)).o.w.past = (s t).o.w.past ++
      (if rt.any Rob.isExc || interrupt (s t).o.w.sp hw then [] else rt.map (·.id)).map (fun u => .inst ((s t).o.w.pay u).1) ++
      if flush (s t).o.w.sp hw then [.jump (c t).inp.target (c t).inp.g] else [] := by
  intro rt hw
  obtain ⟨ws, _, _, h⟩ := TotalProofs.cycle_some (R.step t)
  unfold Ooo.cycle at h
  obtain ⟨x, _, hx⟩ := Option.map_eq_some_iff.1 h
  rw [← hx]
  have hsp : (a t).o.w.sp = (s t).o.w.sp := congrArg (fun w => w.sc.sp) (acts_waker (R.acts t))
  have hwk := acts_waker (R.acts t)
  obtain ⟨hp, hy⟩ := acts_past (R.acts t)
  show (a t).o.w.past ++ (if (retired (a t).o.w.sp (Alive.hw k (waker (a t)) (wcyc (c t)))).any Rob.isExc ||
      interrupt (a t).o.w.sp (Alive.hw k (waker (a t)) (wcyc (c t))) then [] else
        (retired (a t).o.w.sp (Alive.hw k (waker (a t)) (wcyc (c t)))).map (·.id)).map (fun u => Item.inst ((a t).o.w.pay u).1) ++
      (if flush (a t).o.w.sp (Alive.hw k (waker (a t)) (wcyc (c t))) then [Item.jump (c t).inp.target (c t).inp.g] else []) = _
  rw [hp, hy, hsp, hwk]

theorem prefix_mono (R : Total.Run prog k (Total.init n k prf pc m) s a c) {t t' : Nat} (h : t ≤ t') :
    (s t).o.w.past <+: (s t').o.w.past := by
  obtain ⟨d, rfl⟩ := Nat.le.dest h
  induction d with
  | zero => exact List.prefix_rfl
  | succ d ih =>
    refine (ih (by omega)).trans ?_
    rw [show t + (d + 1) = t + d + 1 from rfl, adds R (t + d), List.append_assoc]
    exact List.prefix_append ..

/-- C127: in a fair run in which something is in flight the execution goes on: at least one more instruction retires (or a trap is
taken), and all of what has retired is an execution of the program whose registers are the committed ones. -/
theorem C127_total (hk : Good k.sc.sp) (ha : Alu k) (hz : Sized n k) (wf : WfProg prog k.sc.sp.A)
    (R : Total.Run prog k (Total.init n k prf pc m) s a c) (F : Total.Fair k s c) {t : Nat} (hi : inflight k.sc.sp (s t).o.w.sp ≠ []) :
    ∃ t' > t, ∃ more, more ≠ [] ∧ (s t').o.w.past = (s t).o.w.past ++ more ∧
      Core.Runs prog ⟨pc, prf, m⟩ ((s t).o.w.past ++ more) (s t').o.w.isa ∧
      ∀ x, x < k.sc.sp.A → (s t').o.w.prf ((s t').o.w.sp.regs.arch x) = (s t').o.w.isa.regs x := by
  obtain ⟨t1, h1, hne⟩ := C125_retires hk ha hz (total_alive R) F (t := t) hi
  obtain ⟨more, hm⟩ := prefix_mono R (show t ≤ t1 + 1 by omega)
  obtain ⟨r1, r2⟩ := C127_refines hk ha wf (total_reach R (t1 + 1)).1
  refine ⟨t1 + 1, by omega, more, ?_, hm.symm, by rw [hm]; exact r1, r2⟩
  rintro rfl
  obtain ⟨l, hl⟩ := prefix_mono R h1
  have hadd := adds R t1
  have hlen := congrArg List.length hadd
  have hm := congrArg List.length hm
  have hl := congrArg List.length hl
  simp only [List.length_append, List.length_map, List.length_nil] at hlen hm hl
  obtain ⟨_, _, bw, rw, Z, g, hlk, _, _⟩ := WakerProofs.reach hk ha (ProgressProofs.base (TotalProofs.reach hk ha (total_reach R t1).1).1)
  have hex := (exc_facts hk hlk (Alive.hw k (waker (s t1)) (wcyc (c t1)))).2
  have hne : retired (s t1).o.w.sp (Alive.hw k (waker (s t1)) (wcyc (c t1))) ≠ [] := hne
  have hex : (retired (s t1).o.w.sp (Alive.hw k (waker (s t1)) (wcyc (c t1)))).any Rob.isExc = true ∨
    interrupt (s t1).o.w.sp (Alive.hw k (waker (s t1)) (wcyc (c t1))) = true →
      flush (s t1).o.w.sp (Alive.hw k (waker (s t1)) (wcyc (c t1))) = true := hex
  split at hlen
  · rename_i hb
    rw [Bool.or_eq_true] at hb
    rw [if_pos (hex hb), List.length_singleton] at hlen
    omega
  · have := List.length_pos_iff.2 hne
    rw [List.length_map] at hlen
    omega

/-- C127: …so the execution reaches every length, unless the machine runs empty for good. -/
theorem C127_forever (hk : Good k.sc.sp) (ha : Alu k) (hz : Sized n k) (wf : WfProg prog k.sc.sp.A)
    (R : Total.Run prog k (Total.init n k prf pc m) s a c) (F : Total.Fair k s c) (N : Nat) :
    (∃ t, N ≤ (s t).o.w.past.length ∧ Core.Runs prog ⟨pc, prf, m⟩ (s t).o.w.past (s t).o.w.isa ∧
      ∀ x, x < k.sc.sp.A → (s t).o.w.prf ((s t).o.w.sp.regs.arch x) = (s t).o.w.isa.regs x) ∨
    ∃ t, ∀ t' ≥ t, inflight k.sc.sp (s t').o.w.sp = [] := by
  by_cases hi : ∃ t, ∀ t' ≥ t, inflight k.sc.sp (s t').o.w.sp = []
  · exact .inr hi
  left
  induction N with
  | zero => exact ⟨0, Nat.zero_le _, C127_refines hk ha wf (total_reach R 0).1⟩
  | succ N ih =>
    obtain ⟨t, h1, _⟩ := ih
    obtain ⟨t1, h2, h3⟩ : ∃ t1 ≥ t, inflight k.sc.sp (s t1).o.w.sp ≠ [] :=
      Classical.byContradiction fun h => hi ⟨t, fun t' ht => Classical.byContradiction fun hn => h ⟨t', ht, hn⟩⟩
    obtain ⟨t2, _, more, h5, h6, h7, h8⟩ := C127_total hk ha hz wf R F h3
    refine ⟨t2, ?_, by rw [h6]; exact h7, h8⟩
    have hle := (prefix_mono R h2).length_le
    have := List.length_pos_iff.2 h5
    rw [h6, List.length_append]
    omega

/-- C127: every instruction in flight becomes part of the execution, or is squashed in a cycle with a flush or a misprediction. -/
theorem C127_fate (hk : Good k.sc.sp) (ha : Alu k) (hz : Sized n k)
    (R : Total.Run prog k (Total.init n k prf pc m) s a c) (F : Total.Fair k s c) {t u : Nat} (hu : u ∈ inflight k.sc.sp (s t).o.w.sp) :
    ∃ t' ≥ t, u ∈ inflight k.sc.sp (s t').o.w.sp ∧
      ((∃ more, (s (t' + 1)).o.w.past = (s t').o.w.past ++ more ∧ .inst ((s t').o.w.pay u).1 ∈ more) ∨
       (flush (s t').o.w.sp (Alive.hw k (waker (s t')) (wcyc (c t'))) = true ∨ (s t').o.w.sp.idu.latch.mispred = true) ∧
        u ∉ inflight k.sc.sp (s (t' + 1)).o.w.sp) := by
  obtain ⟨t', h1, h2, h3⟩ := C125_fate hk ha hz (total_alive R) F (t := t) (u := u) hu
  refine ⟨t', h1, h2, ?_⟩
  rcases h3 with h3 | h3
  · have hadd := adds R t'
    obtain ⟨ws, bw, rw, Z, g, hr, hl, I, hv, _, hsp⟩ := run_step hk ha (total_alive R) t'
    have hex := (exc_facts hk hl (Alive.hw k (waker (s t')) (wcyc (c t')))).2
    by_cases hb : ((retired (s t').o.w.sp (Alive.hw k (waker (s t')) (wcyc (c t')))).any Rob.isExc ||
        interrupt (s t').o.w.sp (Alive.hw k (waker (s t')) (wcyc (c t')))) = true
    · rw [Bool.or_eq_true] at hb
      have hf := hex hb
      refine .inr ⟨.inl hf, ?_⟩
      show u ∉ inflight k.sc.sp (waker (s (t' + 1))).sc.sp
      rw [hsp, C106_flush hk hr hv.hw hf]; exact List.not_mem_nil
    · left
      simp only at hadd
      rw [if_neg hb, List.append_assoc] at hadd
      refine ⟨_, hadd, List.mem_append_left _ (List.mem_map.2 ⟨u, h3, rfl⟩)⟩
  · exact .inr h3

end

/-! ### A concrete endless run

The program of `CoreRefRun` on the queues and the bus of `WakerRun`; then nothing more is fetched. -/

namespace TotalRun
open WholeRun (prg at_ wb bne jal)
open SchedRun (kq qs)
open WakerRun (kw)

abbrev St := Total.State 4 Mem

def busOk (s : St) : Bool :=
  (robIds kq.sp s.o.w.sp).all fun u => s.o.w.done u || s.o.w.wrote u ||
    ((Decode.decompose (s.o.inst u).dec).all (fun m => !m.inst.destEn || !decide (m.iq = .int) || !decide (Waker.delay kw m < s.since u)) &&
     (!decide ((s.o.inst u).dec.type = .load ∨ (s.o.inst u).dec.type = .amo) || !s.o.ann u))

def ok (s : St) (c : Total.Input 4 Mem) : Bool :=
  ProgressRun.ok (waker s) (wcyc c) && WholeRun.codeOk c.inp.hw.ib c.inp.slots && busOk s &&
  match Waker.wakes kw (waker s) (wcyc c) with
  | none => false
  | some ws => WholeRun.ok s.o.w (Ooo.input kq s.o (heard c ws))

def act1 (s : St) (x : Bool × Nat) : Option St :=
  if x.1 then if OooRun.runOk s.o x.2 then some { s with o := Ooo.run prg kq s.o x.2 } else none
  else if OooRun.writeOk s.o x.2 then some { s with o := Ooo.write prg kq s.o x.2 } else none

def acts (s : St) : List (Bool × Nat) → Option St
  | [] => some s
  | x :: l => (act1 s x).bind fun t => acts t l

def inp (hw : Spine.Cyc 4) (slots : List (W × W)) (fu : Nat → Nat → Bool) (slow : List Nat) : Total.Input 4 Mem :=
  ⟨⟨hw, slots, 0#32, id⟩, fu, slow⟩

def quiet (slow : List Nat) (l : List Rob.Wb) (r : List (Exu.Op 4)) : Total.Input 4 Mem :=
  inp { SpineRun.quiet with wbs := l, res := r } [(0#32, 0#32), (0#32, 0#32)] (fun _ _ => true) slow
def fetch (i i' j j' : Nat) : Total.Input 4 Mem :=
  inp { SpineRun.quiet with ib := [some (CoreRefRun.txt (at_ i), false), some (CoreRefRun.txt (at_ j), false)] }
    [(at_ i, at_ i'), (at_ j, at_ j')] (fun _ _ => true) []

def sys0 : St := Total.init 4 kw (fun _ => 0#32) CoreRefRun.start CoreRefRun.m0

def one (s : St) (x : List (Bool × Nat) × Total.Input 4 Mem) : Option St :=
  (acts s x.1).bind fun t => if ok t x.2 then Total.cycle prg kw t x.2 else none

def drive (s : St) : List (List (Bool × Nat) × Total.Input 4 Mem) → Option St
  | [] => some s
  | x :: l => (one s x).bind fun t => drive t l

/-- The program of `CoreRefRun`: the wrong path after the branch is executed and squashed. -/
def part1 : List (List (Bool × Nat) × Total.Input 4 Mem) :=
  [([], fetch 0 1 1 2), ([], fetch 2 3 3 4), ([], fetch 4 5 5 6), ([], quiet [] [] []), ([(true, 1), (true, 0)], quiet [] [] []),
   ([(true, 2)], quiet [] [wb 0 1, wb 1 1, wb 2 6] []), ([], quiet [] [] []), ([], quiet [] [] []), ([], quiet [] [] []),
   ([], quiet [] [] []), ([(true, 3)], quiet [35] [] []), ([], fetch 6 7 7 0), ([(true, 4)], quiet [36] [] []), ([], quiet [] [] []),
   ([(true, 5)], quiet [] [] [bne]), ([(true, 6), (false, 7)], quiet [] [wb 5 7, wb 6 1] []), ([], fetch 7 0 0 1), ([], quiet [] [] []),
   ([], quiet [] [] []), ([], quiet [] [] []), ([(true, 9), (true, 8)], quiet [] [wb 0 1, wb 1 1] [jal]), ([], quiet [] [] [])]

def sch (t : Nat) : List (Bool × Nat) × Total.Input 4 Mem := part1.getD t ([], quiet [] [] [])
def cs (t : Nat) : Total.Input 4 Mem := (sch t).2
def ss : Nat → St
  | 0 => sys0
  | t + 1 => ((acts (ss t) (sch t).1).bind fun s => Total.cycle prg kw s (cs t)).getD (ss t)
def as (t : Nat) : St := (acts (ss t) (sch t).1).getD (ss t)

theorem acts_sound : ∀ (l : List (Bool × Nat)) {s s1 s' : St}, Acts prg kw s s1 → acts s1 l = some s' → Acts prg kw s s'
  | [], _, _, _, h, e => by cases e; exact h
  | x :: l, s, s1, s', h, e => by
    obtain ⟨r, h1, h2⟩ := Option.bind_eq_some_iff.1 e
    refine acts_sound l ?_ h2
    unfold act1 at h1
    split at h1
    · split at h1
      · rename_i hk; cases h1; exact .run h (OooRun.runOk_sound hk)
      · cases h1
    · split at h1
      · rename_i hk; cases h1; exact .write h (OooRun.writeOk_sound hk)
      · cases h1

theorem code_uses {ib : List (Option (W × Bool))} {slots : List (W × W)} (h : WholeRun.codeOk ib slots = true) :
    ∀ (i : Nat) w pf (a : W × W), ib[i]? = some (some (w, pf)) → slots[i]? = some a → Ooo.Uses (Decode.decodeEntry w pf) (prg a.1) := by
  intro i w pf a hi ha
  have hm : (some (w, pf), a) ∈ ib.zip slots := by
    refine List.mem_of_getElem? (i := i) ?_
    rw [List.getElem?_zip_eq_some]
    exact ⟨hi, ha⟩
  have := List.all_eq_true.1 h _ hm
  simp only [Bool.and_eq_true, Bool.not_eq_true', decide_eq_true_eq] at this
  rw [this.1, this.2]
  exact C122_uses a.1

theorem ok_sound {s : St} {c : Total.Input 4 Mem} (h : ok s c = true) : Total.Valid prg kw s c := by
  unfold ok at h
  simp only [Bool.and_eq_true] at h
  obtain ⟨⟨⟨h1, h2⟩, h3⟩, h4⟩ := h
  have hb : ∀ u ∈ robIds kq.sp s.o.w.sp, _ := fun u hu => List.all_eq_true.1 h3 u hu
  refine ⟨fun ws hws => ?_, ProgressRun.ok_sound h1, code_uses h2, fun u hu m hm hlt => ?_, fun u hu ht ha => ?_⟩
  · rw [hws] at h4; exact WholeRun.ok_sound h4
  · have := hb u hu
    simp only [Bool.or_eq_true, Bool.and_eq_true, List.all_eq_true] at this
    rcases this with h | ⟨h, _⟩
    · exact h
    · have := h m hm.1
      rw [hm.2.1, decide_eq_true hm.2.2, decide_eq_true hlt] at this
      simp at this
  · have := hb u hu
    simp only [Bool.or_eq_true, Bool.and_eq_true] at this
    rcases this with h | ⟨_, h⟩
    · exact h
    · rw [decide_eq_true ht, ha] at h
      simp at h

theorem follow : ∀ (l : List (List (Bool × Nat) × Total.Input 4 Mem)) (i : Nat) {x : St}, (∀ j < l.length, some (sch (i + j)) = l[j]?) →
    drive (ss i) l = some x → (∀ j < l.length, one (ss (i + j)) (sch (i + j)) = some (ss (i + j + 1))) ∧ ss (i + l.length) = x
  | [], i, x, _, e => by cases e; exact ⟨fun j h => absurd h (Nat.not_lt_zero j), rfl⟩
  | y :: l, i, x, hl, e => by
    obtain ⟨r, h1, h2⟩ := Option.bind_eq_some_iff.1 e
    have hy : sch i = y := by have := hl 0 (Nat.zero_lt_succ _); exact Option.some.inj this
    have hr : ss (i + 1) = r := by
      rw [← hy] at h1
      obtain ⟨q, q1, q2⟩ := Option.bind_eq_some_iff.1 h1
      split at q2
      · rw [ss, q1]
        show (Total.cycle prg kw q (sch i).2).getD _ = r
        rw [q2]; rfl
      · cases q2
    obtain ⟨f1, f2⟩ := follow l (i + 1) (x := x) (fun j hj => by
      have := hl (j + 1) (Nat.succ_lt_succ hj)
      rw [show i + 1 + j = i + (j + 1) by omega]; exact this) (by rw [hr]; exact h2)
    refine ⟨fun j hj => ?_, ?_⟩
    · cases j with
      | zero => rw [Nat.add_zero, hr, hy]; exact h1
      | succ j =>
        have := f1 j (Nat.lt_of_succ_lt_succ hj)
        rw [show i + 1 + j = i + (j + 1) by omega] at this; exact this
    · rw [← f2, List.length_cons]; congr 1; omega

/-- The run up to the end of the program, computed. -/
theorem computed : (drive sys0 part1).map (fun s => (inflight kq.sp s.o.w.sp, s.mul.map (·.map (·.isSome)), s.div.map (·.isSome), s.fp.map (·.isSome))) =
      some ([], [[false, false], [false, false]], [false, false], [false, false]) ∧
    (drive sys0 part1).map (fun s => WholeRun.look s.o.w) = some ([], [0#32, 5#32, 0x80001000#32, 5#32, 10#32, 0x80000020#32],
        [at_ 0, at_ 1, at_ 2, at_ 3, at_ 4, at_ 5, at_ 7, at_ 0], at_ 1, 10#32) := by decide +kernel

theorem sch_early : ∀ j < part1.length, some (sch (0 + j)) = part1[j]? := by
  intro j hj
  rw [Nat.zero_add, sch, List.getD_eq_getElem?_getD, List.getElem?_eq_getElem hj]; rfl

theorem early : (∀ j < 22, one (ss j) (sch j) = some (ss (j + 1))) ∧ drive sys0 part1 = some (ss 22) := by
  obtain ⟨x, hx, _⟩ := Option.map_eq_some_iff.1 computed.1
  obtain ⟨h1, h2⟩ := follow part1 0 sch_early hx
  refine ⟨fun j hj => ?_, ?_⟩
  · have := h1 j hj
    rw [Nat.zero_add] at this; exact this
  · have h2 : ss 22 = x := h2
    rw [h2]; exact hx

theorem early_step {t : Nat} (h : t < 22) : Acts prg kw (ss t) (as t) ∧ Total.Valid prg kw (as t) (cs t) ∧
    Total.cycle prg kw (as t) (cs t) = some (ss (t + 1)) := by
  obtain ⟨q, q1, q2⟩ := Option.bind_eq_some_iff.1 (early.1 t h)
  have ha : as t = q := by rw [as, q1]; rfl
  split at q2
  · rename_i hk
    rw [ha]
    exact ⟨acts_sound _ (.refl _) q1, ok_sound hk, q2⟩
  · cases q2

theorem early_reach : ∀ {t : Nat}, t ≤ 22 → Total.Reach prg kw sys0 (ss t)
  | 0, _ => .init
  | t + 1, h => .cycle (cs t) (.acts (early_reach (by omega)) (early_step (t := t) (by omega)).1) (early_step (t := t) (by omega)).2.1
      (early_step (t := t) (by omega)).2.2

/-- Nothing is in flight and nothing on the way. -/
structure Drained (s : St) : Prop where
  reach : Total.Reach prg kw sys0 s
  bus : AliveRun.Drained (waker s)

theorem nothing (k : Spine.Cfg) (s : Whole.State 4 Mem) (hw : Spine.Cyc 4) (hib : hw.ib = [none, none]) (sl : List (W × W)) (x : W) (g : Mem → Mem) :
    Whole.fetched k s ⟨hw, sl, x, g⟩ = [none, none] := by
  unfold Whole.fetched decSlots decoded
  simp only
  rw [hib]
  rfl

theorem Drained.valid {s : St} (D : Drained s) : Total.Valid prg kw s (quiet [] [] []) := by
  have hrob : RobQueue.insts kq.sp.L s.o.w.sp.rob = [] := D.bus.rob
  have hids : robIds kq.sp s.o.w.sp = [] := by unfold robIds; rw [hrob]; rfl
  have hib : ∀ (i : Nat) (x : W × Bool), ([none, none] : List (Option (W × Bool)))[i]? ≠ some (some x)
    | 0, _, h => by cases h
    | 1, _, h => by cases h
    | _ + 2, _, h => by cases h
  refine ⟨fun ws _ => ⟨⟨rfl, ?_, ?_⟩, ?_, rfl, ?_, ?_, ?_, ?_, ?_⟩, D.bus.valid, ?_, ?_, ?_⟩
  · intro o ho; cases ho
  · intro w h; cases h
  · intro o ho; cases ho
  · intro i w pf a hi; exact absurd hi (hib i (w, pf))
  · intro u hu
    have hu : u ∈ RobQueue.insts kq.sp.L s.o.w.sp.rob := hu
    rw [hrob] at hu; cases hu
  · intro o ho; cases ho
  · intro _
    rw [show Ooo.input kw.sc s.o (heard (quiet [] [] []) ws) = ⟨_, _, _, _⟩ from rfl, nothing _ _ _ rfl]
    trivial
  · intro _ f hf
    rw [show Ooo.input kw.sc s.o (heard (quiet [] [] []) ws) = ⟨_, _, _, _⟩ from rfl, nothing _ _ _ rfl] at hf
    simp at hf
  · intro i w pf a hi; exact absurd hi (hib i (w, pf))
  · intro u hu
    have hu : u ∈ robIds kq.sp s.o.w.sp := hu
    rw [hids] at hu; cases hu
  · intro u hu
    have hu : u ∈ robIds kq.sp s.o.w.sp := hu
    rw [hids] at hu; cases hu

theorem Drained.step {s : St} (D : Drained s) : ∃ s', Total.cycle prg kw s (quiet [] [] []) = some s' ∧ Drained s' := by
  obtain ⟨x, h1, h2⟩ := D.bus.step
  have h1 : Waker.step kw (waker s) (wcyc (quiet [] [] [])) = some x := h1
  obtain ⟨ws, h3, _⟩ := WakerProofs.step_some h1
  obtain ⟨s', hs⟩ : ∃ s', Total.cycle prg kw s (quiet [] [] []) = some s' :=
    ⟨_, by unfold Total.cycle; rw [h3, Option.bind_some, h1, Option.map_some]⟩
  refine ⟨s', hs, .cycle _ D.reach D.valid hs, ?_⟩
  obtain ⟨_, _, h4, _⟩ := TotalProofs.cycle_some hs
  rw [h1, Option.some.injEq] at h4
  rw [← h4]; exact h2

theorem sch_late {t : Nat} (h : 22 ≤ t) : sch t = ([], quiet [] [] []) := by
  have : part1.length = 22 := rfl
  unfold sch
  rw [List.getD_eq_getElem?_getD, List.getElem?_eq_none (by omega)]; rfl

theorem drained_of {s : St} (hr : Total.Reach prg kw sys0 s) (h : (inflight kq.sp s.o.w.sp, s.mul.map (·.map (·.isSome)),
    s.div.map (·.isSome), s.fp.map (·.isSome)) = ([], [[false, false], [false, false]], [false, false], [false, false])) : Drained s := by
  simp only [Prod.mk.injEq] at h
  have no : ∀ (l : List (Option (Wake.Entry 4))), l.map (·.isSome) = [false, false] → l = [none, none] := by
    intro l hl
    match l, hl with
    | [none, none], _ => rfl
  refine ⟨hr, (TotalProofs.reach SpineRun.kx_good WakerRun.alu hr).1, h.1, ?_, no _ h.2.2.1, no _ h.2.2.2⟩
  have hm := h.2.1
  show s.mul = _
  match hl : s.mul with
  | [] => rw [hl] at hm; simp at hm
  | [_] => rw [hl] at hm; simp at hm
  | _ :: _ :: _ :: _ => rw [hl] at hm; simp at hm
  | [a, b] =>
    rw [hl] at hm
    simp only [List.map_cons, List.map_nil, List.cons.injEq, and_true] at hm
    rw [no a hm.1, no b hm.2]

theorem drained (i : Nat) : Drained (ss (22 + i)) := by
  induction i with
  | zero =>
    obtain ⟨x, hx, h⟩ := Option.map_eq_some_iff.1 computed.1
    rw [early.2, Option.some.injEq] at hx
    have hr := early_reach (t := 22) (Nat.le_refl 22)
    rw [hx] at hr
    have := drained_of hr h
    rw [← hx] at this; exact this
  | succ i ih =>
    obtain ⟨s', h1, h2⟩ := ih.step
    show Drained (((acts (ss (22 + i)) (sch (22 + i)).1).bind fun s => Total.cycle prg kw s (sch (22 + i)).2).getD (ss (22 + i)))
    rw [sch_late (by omega)]
    show Drained ((Total.cycle prg kw (ss (22 + i)) (quiet [] [] [])).getD (ss (22 + i)))
    rw [h1]; exact h2

theorem as_late (i : Nat) : as (22 + i) = ss (22 + i) := by unfold as; rw [sch_late (by omega)]; rfl
theorem cs_late (i : Nat) : cs (22 + i) = quiet [] [] [] := by unfold cs; rw [sch_late (by omega)]

theorem endless : Total.Run prg kw sys0 ss as cs where
  init := rfl
  acts t := by
    by_cases h : t < 22
    · exact (early_step h).1
    · obtain ⟨i, rfl⟩ : ∃ i, t = 22 + i := ⟨t - 22, by omega⟩
      rw [as_late]; exact .refl _
  valid t := by
    by_cases h : t < 22
    · exact (early_step h).2.1
    · obtain ⟨i, rfl⟩ : ∃ i, t = 22 + i := ⟨t - 22, by omega⟩
      rw [as_late, cs_late]; exact (drained i).valid
  step t := by
    by_cases h : t < 22
    · exact (early_step h).2.2
    · obtain ⟨i, rfl⟩ : ∃ i, t = 22 + i := ⟨t - 22, by omega⟩
      obtain ⟨s', h1, _⟩ := (drained i).step
      rw [as_late, cs_late, h1]
      show _ = some (((acts (ss (22 + i)) (sch (22 + i)).1).bind fun s => Total.cycle prg kw s (sch (22 + i)).2).getD (ss (22 + i)))
      rw [sch_late (by omega)]
      show _ = some ((Total.cycle prg kw (ss (22 + i)) (quiet [] [] [])).getD (ss (22 + i)))
      rw [h1]; rfl

theorem quiet_mis (i : Nat) : (waker (ss (22 + i))).sc.sp.idu.latch.mispred = false := by
  obtain ⟨_, _, bw, rw, Z, g, hl, _⟩ := WakerProofs.reach SpineRun.kx_good WakerRun.alu (ProgressProofs.base (drained i).bus.reach)
  exact (AliveProofs.empty_facts SpineRun.kx_good hl (drained i).bus.rob (Alive.hw kw (waker (ss (22 + i))) (WakerRun.quiet [] []))).1

theorem fair : Total.Fair kw ss cs where
  units t := ⟨22 + t, by omega, quiet_mis t, fun p o => by rw [cs_late]; rfl⟩
  finishes t u _ _ := ⟨22 + t, by omega, fun t'' h v hv => by
    obtain ⟨i, rfl⟩ : ∃ i, t'' = 22 + i := ⟨t'' - 22, by omega⟩
    rw [(drained i).bus.rob] at hv; cases hv⟩
  loads t u _ _ _ := ⟨22 + t, by omega, fun h => by
    unfold robIds at h
    rw [(drained t).bus.rob] at h; cases h⟩
  stores t := ⟨22 + t, by omega, quiet_mis t, fun v hv => by rw [(drained t).bus.rob] at hv; cases hv⟩
  room t := ⟨22 + t, by omega, fun _ => by rw [cs_late]; exact ⟨by decide, by decide, rfl⟩⟩

/-- The hypotheses of the theorems hold in the run: after one cycle the first two instructions are in flight, after fifteen (all of the wrong
path being in the reorder buffer) three have retired; in the end the eight of the program. -/
example : Good kw.sc.sp ∧ Alu kw ∧ Sized 4 kw ∧ WfProg prg kw.sc.sp.A ∧ Total.Run prg kw sys0 ss as cs ∧ Total.Fair kw ss cs ∧
    inflight kw.sc.sp (ss 1).o.w.sp = [0, 1] :=
  ⟨SpineRun.kx_good, WakerRun.alu, AliveRun.sized, Whole.machine_wf (by decide), endless, fair, by decide +kernel⟩

theorem halfway : (drive sys0 (part1.take 15)).map (fun s => (inflight kq.sp s.o.w.sp, (robIds kq.sp s.o.w.sp).filter s.o.ann,
      (robIds kq.sp s.o.w.sp).map s.since, s.o.w.past.length)) = some ([3, 4, 5, 6, 7], [3, 4, 6, 7], [6, 4, 0, 1, 1], 3) := by
  decide +kernel

/-- Before the next cycle the unit must have computed `6` and written the link register of `7`, whose results the bus has announced
(C127_announced); otherwise it is not as fast as its latency. -/
example : (drive sys0 (part1.take 15)).map (fun s => (busOk s, (acts s [(true, 6)]).map busOk, (acts s [(true, 6), (false, 7)]).map busOk,
      (acts s [(true, 6), (false, 7)]).map (fun t => (t.o.w.prf (t.o.w.sp.info 6).preg, t.o.w.prf (t.o.w.sp.info 7).preg)))) =
    some (false, some false, some true, some (99#32, 0x80000020#32)) := by decide +kernel

/-- Instruction `4`, the load, may run after twelve cycles (C127_operands). -/
example : (drive sys0 (part1.take 12)).map (fun s => OooRun.runOk s.o 4) = some true := by decide +kernel

/-- C127_reference: the reference, called eight times, agrees at the end. -/
example (F : Fp.SoftFloat) (e : Nat → RefCpu.Env) : ∃ r', refRun F e 8 CoreRefRun.ref0 = some r' ∧
    (∀ a, a < 32 → r'.gpr a = (ss 22).o.w.prf ((ss 22).o.w.sp.regs.arch a)) ∧ r'.pc = (ss 22).o.w.isa.pc ∧ r'.gpr 4 = 10#32 := by
  have h : ((drive sys0 part1).map fun s => (s.o.w.past.length,
      s.o.w.past.all (fun i => match i with | .inst _ => true | .jump _ _ => false), s.o.w.prf (s.o.w.sp.regs.arch 4))) =
      some (8, true, 10#32) := by decide +kernel
  rw [early.2, Option.map_some, Option.some.injEq, Prod.mk.injEq, Prod.mk.injEq] at h
  have hi : ∀ i ∈ (ss 22).o.w.past, ∃ p, i = .inst p := by
    intro i hi
    have := List.all_eq_true.1 h.2.1 i hi
    cases i with
    | inst p => exact ⟨p, rfl⟩
    | jump p g => simp at this
  obtain ⟨r', h1, h2, h3, -⟩ := C127_reference (k := kw) SpineRun.kx_good WakerRun.alu (early_reach (Nat.le_refl 22)) hi
    (by rw [h.1]; exact WholeRun.runnable8) CoreRefRun.agrees0 F e
  rw [h.1] at h1
  exact ⟨r', h1, h2, h3, (h2 4 (by decide)).trans h.2.2⟩

end TotalRun
end Verif.Props

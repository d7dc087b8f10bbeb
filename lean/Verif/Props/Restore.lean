import Verif.Proofs.Restore
import Verif.Model.Ren
/-
C109: continuing a program in the core where the reference, or a checkpoint, left it.
-/
namespace Verif.Props
open Verif.Restore Verif.PhysMem

/-- The map of registers after reset: `Ren::init`, with `P` physical registers and A = 32 + 1 architectural ones. -/
def resetMap (P : Nat) : Nat → Nat := (Ren.init P 33).spec

/-- C109: after switching from the reference to the core, the core holds the reference's registers, CSRs, privilege,
reservation, program counter, RAM and I/O windows.  Partial: the timer is not handed over (`C109_timer_lost`), nor are words
outside the windows (`C109_other_words_lost`). -/
theorem C109_handover_partial {P : Nat} {r : Ref} {c : Core} (hc : c.pm.ram.isSome = true) :
    ∃ c', fromRef r c = some c' ∧ Same (resetMap P) (fun a => RamAddr a.toNat ∨ InIo (a.toNat / 4 * 4)) c' r := by
  obtain ⟨s', e, hr, hio⟩ := writeAll_plain (f := fun a => (r.io a).getD 0#32) ioWords
    (s := { c.pm with ram := some fun k => (r.ram (BitVec.ofNat 32 (k / 4)) >>> (8 * (k % 4))).setWidth 8 }) rfl
    (fun a h => ioWords_plain h)
  refine ⟨setArch r.arch { c with pm := s' }, by simp only [fromRef, getState, hc, if_true, e, Option.map_some], ?_⟩
  refine ⟨fun i hi => ?_, fun i hi => ?_, ⟨rfl, rfl⟩, ⟨rfl, rfl⟩, ⟨rfl, rfl, rfl⟩, fun a ha => ?_⟩
  · have : resetMap P i = i := if_pos (by omega)
    simp [setArch, this, hi]
  · simp [setArch, hi]
  · refine read_load (s := s') hr (fun _ i hi => ?_) (fun hn => ?_)
    · unfold PhysMem.word
      rw [if_pos (by simp only [ramSize]; omega)]
      have d3 : (4 * i + 3) / 4 = i := by omega
      have d2 : (4 * i + 2) / 4 = i := by omega
      have d1 : (4 * i + 1) / 4 = i := by omega
      have d0 : 4 * i / 4 = i := by omega
      have m3 : 8 * ((4 * i + 3) % 4) = 24 := by omega
      have m2 : 8 * ((4 * i + 2) % 4) = 16 := by omega
      have m1 : 8 * ((4 * i + 1) % 4) = 8 := by omega
      have m0 : 8 * (4 * i % 4) = 0 := by omega
      simp only []
      rw [d3, d2, d1, d0, m3, m2, m1, m0, word_bytes]
    · rw [hio, if_pos]
      rw [mem_ioWords, align_nat]
      refine ⟨by omega, ?_⟩
      rcases ha with h | h
      · exact absurd h hn
      · exact h

/-- The code violates C109: the timer stays as it was.  A program whose next timer interrupt is still to come on the
reference has one pending as soon as it continues in the core. -/
theorem C109_timer_lost {r : Ref} {c c' : Core} {now : BitVec 64} {m : BitVec 32 → BitVec 32} (h : fromRef r c = some c')
    (hd : c.dev = Device.State.init m) (_hq : (now + r.timerOff).toNat < r.timerCmp.toNat) :
    (Device.tick now c'.dev).timerLine = some true ∧ Device.read now c'.dev 0x1fd0e008#32 2#3 = 0#32 := by
  have hd' : c'.dev = Device.State.init m := by
    simp only [fromRef, Option.map_eq_some_iff] at h
    obtain ⟨pm, _, rfl⟩ := h
    exact hd
  rw [hd']
  refine ⟨?_, ?_⟩
  · simp [Device.tick, Device.updExt, Device.updTimer, Device.State.init]
  · rfl

/-- Nor is a word handed over that the program stored outside RAM and the windows. -/
theorem C109_other_words_lost {r : Ref} {c c' : Core} {a : BitVec 32} (h : fromRef r c = some c')
    (hm : c.pm.io = fun _ => none) (h1 : a.toNat < 0x80000000) (h2 : ¬ InIo (a.toNat / 4 * 4)) :
    PhysMem.read c'.pm a = some 0#32 := by
  have hc : c.pm.ram.isSome = true := by
    by_cases hh : c.pm.ram.isSome = true
    · exact hh
    · simp [fromRef, getState, hh] at h
  obtain ⟨s', e, hr, hio⟩ := writeAll_plain (f := fun a => (r.io a).getD 0#32) ioWords
    (s := { c.pm with ram := some fun k => (r.ram (BitVec.ofNat 32 (k / 4)) >>> (8 * (k % 4))).setWidth 8 }) rfl
    (fun a h => ioWords_plain h)
  simp only [fromRef, getState, hc, if_true, e, Option.map_some, Option.some.injEq] at h
  subst h
  show PhysMem.read s' a = _
  have hp : ¬ isRam (a &&& ~~~3#32) 4#32 = true := fun h => by have := (isRam_word a).1 h; omega
  unfold PhysMem.read
  rw [hr]
  simp only
  rw [if_neg hp, hio, if_neg (by rw [mem_ioWords, align_nat]; exact fun h => h2 h.2), hm]
  rfl

/-- C109: restoring a checkpoint file gives the core exactly what the file holds, and starts the reference in the same state,
at every address.  Partial: the timer range must not be longer than the timer, and the timer itself is not restored
(`C109_checkpoint_timer_lost`). -/
theorem C109_checkpoint_partial {P : Nat} {i : Image} (hi : i.Ok) (ht : i.timer.length ≤ 0x100) {c : Core}
    (hc : c.pm.ram.isSome = true) (tail : List (BitVec 8)) :
    ∃ c' r, fromFile (i.encode ++ tail) c = some (c', r, i.interval) ∧ Same (resetMap P) (fun _ => True) c' r ∧
      (∀ k < 32, r.arch.gpr k = i.gpr.getD k 0#32) ∧ (∀ k < 21, r.arch.csr k = i.csr.getD k 0#32) ∧ r.arch.pc = i.pc ∧
      r.arch.priv.toNat = i.priv.toNat % 4 ∧ r.arch.resValid = i.resValid ∧ r.arch.resAddr = i.resAddr ∧
      (∀ k < 0x10000000, r.load (0x80000000#32 + BitVec.ofNat 32 (4 * k)) = wordAt i.ram k) ∧
      (∀ k < 0x800, r.load (BitVec.ofNat 32 (4 * k)) = wordAt i.boot k) ∧
      (∀ k < 0x40, r.load (0x10000000#32 + BitVec.ofNat 32 (4 * k)) = wordAt i.uart k) ∧
      (∀ k < 0x84000, r.load (0x0c000000#32 + BitVec.ofNat 32 (4 * k)) = wordAt i.plic k) ∧
      (∀ k < i.timer.length / 4, r.load (0x1fd0e000#32 + BitVec.ofNat 32 (4 * k)) = wordAt i.timer k) := by
  -- the memory after the ranges
  let s0 : PhysMem.State := { clearAll c.pm with ram := some fun k => (i.ram[k]?).getD 0#8 }
  have hs0 : s0.ram = some fun k => (i.ram[k]?).getD 0#8 := rfl
  have hio0 : ∀ q, s0.io q = none := fun q => rfl
  have b0 : (0#32 : BitVec 32).toNat = 0 := rfl
  have b1 : (0x10000000#32 : BitVec 32).toNat = 0x10000000 := rfl
  have b2 : (0x0c000000#32 : BitVec 32).toNat = 0x0c000000 := rfl
  have b3 : (0x1fd0e000#32 : BitVec 32).toNat = 0x1fd0e000 := rfl
  obtain ⟨s1, e1, r1, o1, g1⟩ := putWords_spec (base := 0#32) (bs := i.boot) (by decide) (i.boot.length / 4) (s := s0)
    (by rw [hi.boot]; decide) hs0
  obtain ⟨s2, e2, r2, o2, g2⟩ := putWords_spec (base := 0x10000000#32) (bs := i.uart) (by decide) (i.uart.length / 4) (s := s1)
    (by rw [hi.uart]; decide) r1
  obtain ⟨s3, e3, r3, o3, g3⟩ := putWords_spec (base := 0x0c000000#32) (bs := i.plic) (by decide) (i.plic.length / 4) (s := s2)
    (by rw [hi.plic]; decide) r2
  obtain ⟨s4, e4, r4, o4, g4⟩ := putWords_spec (base := 0x1fd0e000#32) (bs := i.timer) (by decide) (i.timer.length / 4) (s := s3)
    (by rw [b3]; omega) r3
  rw [hi.boot, b0] at o1; rw [hi.uart, b1] at o2; rw [hi.plic, b2] at o3; rw [b3] at o4
  rw [hi.boot] at g1; rw [hi.uart] at g2; rw [hi.plic] at g3
  have hput : putRanges layout (putRange 0#32 i.boot ++ (putRange 0x10000000#32 i.uart ++ (putRange 0x0c000000#32 i.plic ++
      (putRange 0x1fd0e000#32 i.timer ++ tail)))) s0 = some s4 := by
    unfold layout
    rw [putRanges_cons (e := (0#32, 0x2000)) (by rw [hi.boot]; decide) (.inr hi.boot), e1, Option.bind_some,
      putRanges_cons (e := (0x10000000#32, 0x100)) (by rw [hi.uart]; decide) (.inr hi.uart), e2, Option.bind_some,
      putRanges_cons (e := (0x0c000000#32, 0x210000)) (by rw [hi.plic]; decide) (.inr hi.plic), e3, Option.bind_some,
      putRanges_cons (e := (0x1fd0e000#32, 0x100)) (by omega) (.inl rfl), e4, Option.bind_some]
    rfl
  -- the reference
  let a : Arch := ⟨fun k => i.gpr.getD k 0#32, fun k => i.csr.getD k 0#32, i.pc, (i.priv &&& 3#16).setWidth 8, i.resValid, i.resAddr⟩
  obtain ⟨m, em, gm⟩ := readAll_plain r4 ioWords (fun a h => ioWords_plain h)
  let r : Ref := ⟨a, fun k => (PhysMem.word (fun k => (i.ram[k]?).getD 0#8) k.toNat).getD 0#32, m, 0#64, 0#64⟩
  have hinit : initRef a s4 = some r := by
    simp only [initRef, r4, em, Option.map_some]
    rfl
  -- what is outside the windows is zero
  have hout : ∀ q : BitVec 32, q.toNat % 4 = 0 → ¬ InIo q.toNat → s4.io q = none := by
    intro q h4 hq
    unfold InIo at hq
    rw [o4 q (by omega), o3 q (by omega), o2 q (by omega), o1 q (by omega)]
    rfl
  have hword : ∀ k : Nat, k < 0x10000000 → PhysMem.word (fun k => (i.ram[k]?).getD 0#8) k = some (wordAt i.ram k) := by
    intro k hk
    unfold PhysMem.word
    rw [if_pos (by simp only [ramSize]; omega)]
    simp [wordAt, List.getD_eq_getElem?_getD]
  have hmem : ∀ q, PhysMem.read s4 q = some (r.load q) := by
    intro q
    refine read_load r4 (fun _ k hk => ?_) (fun _ => ?_)
    · show _ = some ((PhysMem.word _ (BitVec.ofNat 32 k).toNat).getD 0#32)
      rw [BitVec.toNat_ofNat, Nat.mod_eq_of_lt (by omega), hword k hk]
      rfl
    · show _ = (m _).getD 0#32
      rw [gm]
      by_cases h : q &&& ~~~3#32 ∈ ioWords
      · rw [if_pos h]
      · rw [if_neg h, hout _ (by rw [align_nat]; omega) ?_]
        · rfl
        · intro h'
          exact h ((mem_ioWords _).2 ⟨by rw [align_nat]; omega, h'⟩)
  -- loads in the windows
  have hload : ∀ q : BitVec 32, q.toNat % 4 = 0 → InIo q.toNat → r.load q = (s4.io q).getD 0#32 := by
    intro q h4 hq
    have hlt : ¬ isRam (q &&& ~~~3#32) 4#32 = true := fun h => by
      have := (isRam_word q).1 h; unfold InIo at hq; omega
    rw [load_eq, if_neg hlt, (aligned_iff q).2 h4]
    show (m q).getD 0#32 = _
    rw [gm, if_pos ((mem_ioWords q).2 ⟨h4, hq⟩)]
  have hn0 : ∀ k < 0x800, (0#32 + BitVec.ofNat 32 (4 * k)).toNat = 4 * k := fun k hk => by
    rw [toNat_word (by rw [b0]; omega), b0, Nat.zero_add]
  have hn1 : ∀ k < 0x40, (0x10000000#32 + BitVec.ofNat 32 (4 * k)).toNat = 0x10000000 + 4 * k := fun k hk =>
    toNat_word (by rw [b1]; omega)
  have hn2 : ∀ k < 0x84000, (0x0c000000#32 + BitVec.ofNat 32 (4 * k)).toNat = 0x0c000000 + 4 * k := fun k hk =>
    toNat_word (by rw [b2]; omega)
  have hn3 : ∀ k < i.timer.length / 4, (0x1fd0e000#32 + BitVec.ofNat 32 (4 * k)).toNat = 0x1fd0e000 + 4 * k := fun k hk =>
    toNat_word (by rw [b3]; omega)
  refine ⟨setArch a { c with pm := s4 }, r, ?_, ?_, fun k hk => rfl, fun k hk => rfl, rfl, ?_, rfl, rfl, ?_, ?_, ?_, ?_, ?_⟩
  · have hsz : (0x40000000#32 : BitVec 32).toNat = PhysMem.ramSize := by decide
    have ec : ∀ rest, cpuState (i.gpr.flatMap put32 ++ (i.csr.flatMap put32 ++ (put32 i.pc ++ (i.storeWords.flatMap put32 ++
        (putFlag i.store ++ (putFlag i.resValid ++ (i.pad ++ (put32 i.resAddr ++ rest)))))))) =
        some ({ a with priv := 0#8 }, rest) := by
      intro rest
      simp only [cpuState, u32s_put _ _ hi.gpr, u32s_put _ _ hi.csr, u32s_put _ _ hi.storeWords, u32_put, flag_put,
        exact_put _ _ hi.pad, Option.bind_some, Option.map_some]
      rfl
    have er : ∀ rest, exact PhysMem.ramSize (i.ram ++ rest) = some (i.ram, rest) := fun rest => exact_put _ _ hi.ram
    simp only [fromFile, Image.encode, List.append_assoc, u32_put, u16_put, Option.bind_some, hsz, and_self, if_true, ec,
      u64_put, hc, er]
    show (putRanges layout _ s0).bind _ = _
    rw [hput]
    show (initRef a s4).map _ = _
    rw [hinit]
    rfl
  · refine ⟨fun k hk => ?_, fun k hk => ?_, ⟨rfl, rfl⟩, ⟨rfl, rfl⟩, ⟨rfl, rfl, rfl⟩, fun q _ => hmem q⟩
    · have : resetMap P k = k := if_pos (by omega)
      simp [setArch, this, hk, r]
    · simp [setArch, hk, r]
  · show ((i.priv &&& 3#16).setWidth 8).toNat = _
    rw [BitVec.toNat_setWidth, BitVec.toNat_and]
    have : (3#16 : BitVec 16).toNat = 2 ^ 2 - 1 := rfl
    rw [this, Nat.and_two_pow_sub_one_eq_mod]
    omega
  · intro k hk
    have hn : (0x80000000#32 + BitVec.ofNat 32 (4 * k)).toNat = 0x80000000 + 4 * k := toNat_word (by simp; omega)
    have h := hmem (0x80000000#32 + BitVec.ofNat 32 (4 * k))
    have hr : isRam ((0x80000000#32 + BitVec.ofNat 32 (4 * k)) &&& ~~~3#32) 4#32 = true :=
      (isRam_word _).2 ⟨by omega, by omega⟩
    unfold PhysMem.read at h
    rw [r4] at h
    simp only at h
    rw [if_pos hr, ram_index _ (by omega), hn] at h
    have hk' : ramOff (0x80000000 + 4 * k) / 4 = k := by
      have := off_add 0x80000000 (4 * k) (Nat.le_refl _)
      have h0 : ramOff 0x80000000 = 0 := by decide
      omega
    rw [hk', hword k hk] at h
    exact (Option.some.inj h).symm
  · intro k hk
    have hn := hn0 k hk
    rw [show BitVec.ofNat 32 (4 * k) = 0#32 + BitVec.ofNat 32 (4 * k) by simp, hload _ (by omega) (by unfold InIo; omega),
      o4 _ (by omega), o3 _ (by omega), o2 _ (by omega), g1 k (by omega) (by rw [hio0]; rfl)]
  · intro k hk
    have hn := hn1 k hk
    rw [hload _ (by omega) (by unfold InIo; omega), o4 _ (by omega), o3 _ (by omega),
      g2 k (by omega) (by rw [o1 _ (by omega), hio0]; rfl)]
  · intro k hk
    have hn := hn2 k hk
    rw [hload _ (by omega) (by unfold InIo; omega), o4 _ (by omega),
      g3 k (by omega) (by rw [o2 _ (by omega), o1 _ (by omega), hio0]; rfl)]
  · intro k hk
    have hn := hn3 k hk
    rw [hload _ (by omega) (by unfold InIo; omega),
      g4 k (by omega) (by rw [o3 _ (by omega), o2 _ (by omega), o1 _ (by omega), hio0]; rfl)]

/-- A file whose first words are not the magic number, or whose version is not 2, is refused. -/
theorem C109_refused {m : BitVec 32} {v : BitVec 16} {rest : List (BitVec 8)} {c : Core} (h : m ≠ 0x006d6552#32 ∨ v ≠ 2#16) :
    fromFile (put32 m ++ (put16 v ++ rest)) c = none := by
  simp only [fromFile, u32_put, u16_put, Option.bind_some]
  have : ∀ (p q : Prop), ¬ (m = 0x006d6552#32 ∧ v = 2#16 ∧ p ∧ q) := by
    rintro p q ⟨h1, h2, _⟩
    rcases h with h | h
    · exact h h1
    · exact h h2
  simp only [this, if_false]
  simp

/-- The code violates C109 for checkpoints too: whatever the file says about the timer, the core's timer registers read as
zero (and so a timer interrupt is pending at once). -/
theorem C109_checkpoint_timer_lost {f : List (BitVec 8)} {c c' : Core} {r : Ref} {n now : BitVec 64} {m : BitVec 32 → BitVec 32}
    (h : fromFile f c = some (c', r, n)) (hd : c.dev = Device.State.init m) :
    Device.read now c'.dev 0x1fd0e008#32 2#3 = 0#32 ∧ (Device.tick now c'.dev).timerLine = some true := by
  have hd' : c'.dev = c.dev := by
    simp only [fromFile, Option.bind_eq_some_iff] at h
    obtain ⟨_, _, _, _, _, _, _, _, _, _, h⟩ := h
    split at h
    · simp only [Option.bind_eq_some_iff] at h
      obtain ⟨_, _, _, _, h⟩ := h
      split at h
      · simp only [Option.bind_eq_some_iff, Option.map_eq_some_iff, Prod.mk.injEq] at h
        obtain ⟨_, _, _, _, _, _, rfl, _, _⟩ := h
        rfl
      · cases h
    · cases h
  rw [hd', hd]
  refine ⟨rfl, ?_⟩
  simp [Device.tick, Device.updExt, Device.updTimer, Device.State.init]

/-! ### Concrete cases -/
namespace RestoreRun

def core : Core :=
  ⟨fun _ => 0, fun _ => 0, fun _ => 0, fun _ => 0, 3, 3, (false, 0), (false, 0), 0, false, 0, PhysMem.init .start, Device.State.init fun _ => 0⟩

example : core.pm.ram.isSome = true := by decide

/-- Fast-forwarded into supervisor mode, with a timer set for cycle 1000. -/
def ref : Ref :=
  ⟨⟨fun i => BitVec.ofNat 32 (3 * i), fun _ => 0, 0x80000100#32, 1#8, true, 0x80001000#32⟩, fun i => i, fun a => if a = 0x10000004#32 then some 0x6000#32 else none, 0, 1000⟩

example : (5#64 + ref.timerOff).toNat < ref.timerCmp.toNat := by decide

example : ∃ c', fromRef ref core = some c' ∧ c'.reg 10 = 30#32 ∧ PhysMem.read c'.pm 0x10000004#32 = some 0x6000#32 ∧
    (Device.tick 5#64 c'.dev).timerLine = some true := by
  obtain ⟨c', e, h⟩ := C109_handover_partial (P := 64) (r := ref) (c := core) (by decide)
  refine ⟨c', e, (h.regs 10 (by decide)).1, ?_, (C109_timer_lost (now := 5#64) e rfl (by decide)).1⟩
  rw [h.mem _ (.inr (by unfold InIo; right; left; decide))]
  decide

/-- A word the program left at 0x02004000. -/
example : ∃ c', fromRef { ref with io := fun _ => some 8#32 } core = some c' ∧ PhysMem.read c'.pm 0x02004000#32 = some 0#32 ∧
    Ref.load { ref with io := fun _ => some 8#32 } 0x02004000#32 = 8#32 := by
  obtain ⟨c', e, _⟩ := C109_handover_partial (P := 64) (r := { ref with io := fun _ => some 8#32 }) (c := core) (by decide)
  exact ⟨c', e, C109_other_words_lost e rfl (by decide) (by unfold InIo; decide), by decide⟩

/-- A checkpoint with a timer compare of 5. -/
def image : Image :=
  ⟨1#16, List.replicate 32 7#32, List.replicate 21 9#32, 0x80000000#32, false, [0, 0, 0], false, [0, 0], 0#32, 1000#64,
    List.replicate 0x40000000 1#8, List.replicate 0x2000 0#8, List.replicate 0x100 0#8, List.replicate 0x210000 0#8,
    [0, 0, 0, 0, 0, 0, 0, 0, 5, 0, 0, 0]⟩

theorem image_ok : image.Ok := by
  refine ⟨List.length_replicate, List.length_replicate, rfl, rfl, List.length_replicate, List.length_replicate, List.length_replicate,
    List.length_replicate, ?_⟩
  show 12 < 0x60000000
  decide

example : ∃ c' r, fromFile (image.encode ++ []) core = some (c', r, 1000#64) ∧ r.load 0x1fd0e008#32 = 5#32 ∧
    Device.read 0#64 c'.dev 0x1fd0e008#32 2#3 = 0#32 := by
  obtain ⟨c', r, e, _, _, _, _, _, _, _, _, _, _, _, h⟩ := C109_checkpoint_partial (P := 64) image_ok (by show 12 ≤ 0x100; decide) (c := core) (by decide) []
  exact ⟨c', r, e, h 2 (by show 2 < 12 / 4; decide), (C109_checkpoint_timer_lost e rfl).1⟩

end RestoreRun
end Verif.Props

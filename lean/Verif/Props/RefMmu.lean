import Verif.Proofs.RefMmu

/-! # C31: address translation of the reference model -/
namespace Verif.Props
open Verif.RefMmu Verif.Spec Verif.Spec.Sv32

/-- Physical memory as the walk of the specification reads it: numbers at numeric addresses (32-bit bus). -/
def busView (mem : BitVec 32 → BitVec 32) : Nat → Nat := fun a => (mem (BitVec.ofNat 32 a)).toNat

/-- The case the code treats differently from the manual: an instruction fetch in supervisor mode with SUM=1
whose root entry is a leaf (4 MiB page) with the U bit. -/
def SuperUserFetch (mem : BitVec 32 → BitVec 32) (satp v : BitVec 32) (acc : Access) (mode : Mode) (sum : Bool) : Prop :=
  acc = .fetch ∧ mode = .supervisor ∧ sum = true ∧
    U (busView mem (satp.toNat % 2 ^ 22 * 2 ^ 12 + 4 * vpn v.toNat 1)) ∧
    X (busView mem (satp.toNat % 2 ^ 22 * 2 ^ 12 + 4 * vpn v.toNat 1))

/-- The first-level user check of the code. -/
def userOk1 (pte : BitVec 32) (mode : Mode) (sum : Bool) : Bool :=
  match mode with
  | .user => pte.getLsbD 4
  | .supervisor => !pte.getLsbD 4 || sum

/-- Effective privilege of an access (manual: MPRV applies to data accesses only). -/
def effPriv (mstatus : BitVec 32) (priv : Nat) (acc : Access) : Nat :=
  if acc ≠ .fetch ∧ mstatus.toNat / 2 ^ 17 % 2 = 1 then mstatus.toNat / 2 ^ 11 % 4 else priv

theorem mpp_eq (m : BitVec 32) : mpp m = m.toNat / 2 ^ 11 % 4 := by
  unfold mpp; rw [and_low _ _ 2 (by decide), shr_toNat]

theorem eff_eq (m : BitVec 32) (priv : Nat) (acc : Access) :
    (if code acc ≠ 0 ∧ m.getLsbD 17 = true then mpp m else priv) = effPriv m priv acc := by
  unfold effPriv
  rw [mpp_eq]
  have h : m.toNat / 2 ^ 17 % 2 = 1 ↔ m.getLsbD 17 = true := flag_iff m 17
  simp only [h]
  cases acc <;> simp [code]

/-- Address of the root entry, and of the second-level entry. -/
def rootEntry (satp v : BitVec 32) : BitVec 32 := BitVec.ofNat 32 (satp.toNat % 2 ^ 22 * 2 ^ 12 + 4 * vpn v.toNat 1)
def nextEntry (pte v : BitVec 32) : BitVec 32 := BitVec.ofNat 32 (ppn pte.toNat * 2 ^ 12 + 4 * vpn v.toNat 0)

/-- The code's walk, with the checks gathered. -/
theorem va2pa_eq (mem : BitVec 32 → BitVec 32) (c : Ctx) (v : BitVec 32) (acc : Access) (mode : Mode)
    (he : effPriv c.mstatus c.priv acc = modeCode mode) :
    va2pa mem c v (code acc) =
      let pte1 := mem (rootEntry c.satp v)
      if ¬ V pte1.toNat ∨ (¬ R pte1.toNat ∧ W pte1.toNat) then none
      else if R pte1.toNat ∨ X pte1.toNat then
        if permOk pte1 (c.mstatus.getLsbD 19) (code acc) = true ∧ userOk1 pte1 mode (c.mstatus.getLsbD 18) = true ∧
            ppn pte1.toNat % 2 ^ (10 * 1) = 0 ∧ adOk pte1 (code acc) = true then
          some (BitVec.ofNat 32 (ppn pte1.toNat * 2 ^ 12 + v.toNat % 2 ^ (12 + 10 * 1)))
        else none
      else
        let pte2 := mem (nextEntry pte1 v)
        if ¬ V pte2.toNat ∨ (¬ R pte2.toNat ∧ W pte2.toNat) then none
        else if R pte2.toNat ∨ X pte2.toNat then
          if permOk pte2 (c.mstatus.getLsbD 19) (code acc) = true ∧ userOk pte2 acc mode (c.mstatus.getLsbD 18) = true ∧
              adOk pte2 (code acc) = true then
            some (BitVec.ofNat 32 (ppn pte2.toNat * 2 ^ 12 + v.toNat % 2 ^ (12 + 10 * 0)))
          else none
        else none := by
  unfold va2pa
  dsimp only
  rw [eff_eq, he, pte1_addr, ← rootEntry]
  generalize mem (rootEntry c.satp v) = pte1
  rw [pte2_addr, ← nextEntry]
  generalize mem (nextEntry pte1 v) = pte2
  simp only [flag_iff]
  have hinv : ∀ x : BitVec 32, (!x.getLsbD 0 || (!x.getLsbD 1 && x.getLsbD 2)) = true ↔
      (¬ x.getLsbD 0 = true ∨ (¬ x.getLsbD 1 = true ∧ x.getLsbD 2 = true)) := by
    intro x; cases x.getLsbD 0 <;> cases x.getLsbD 1 <;> cases x.getLsbD 2 <;> decide
  simp only [hinv, Bool.or_eq_true]
  by_cases h1 : ¬ pte1.getLsbD 0 = true ∨ (¬ pte1.getLsbD 1 = true ∧ pte1.getLsbD 2 = true)
  · rw [if_pos h1, if_pos h1]
  · rw [if_neg h1, if_neg h1]
    by_cases hl : pte1.getLsbD 1 = true ∨ pte1.getLsbD 3 = true
    · rw [if_pos hl, if_pos hl]
      generalize c.mstatus.getLsbD 19 = mxr
      generalize c.mstatus.getLsbD 18 = sum
      have hsa := super_aligned pte1
      by_cases ha : ppn pte1.toNat % 2 ^ (10 * 1) = 0
      · rw [pa_super _ _ ha]
        simp only [hsa.mpr ha, ha, userOk1]
        cases permOk pte1 mxr (code acc) <;> cases adOk pte1 (code acc) <;> cases mode <;> cases sum <;>
          cases pte1.getLsbD 4 <;> simp [modeCode]
      · have hsa' : ¬ (pte1 >>> 10) &&& 0x3FF#32 = 0#32 := fun e => ha (hsa.mp e)
        simp [hsa', ha]
    · rw [if_neg hl, if_neg hl]
      by_cases h2 : ¬ pte2.getLsbD 0 = true ∨ (¬ pte2.getLsbD 1 = true ∧ pte2.getLsbD 2 = true)
      · rw [if_pos h2, if_pos h2]
      · rw [if_neg h2, if_neg h2]
        by_cases hl2 : pte2.getLsbD 1 = true ∨ pte2.getLsbD 3 = true
        · rw [if_pos hl2, if_pos hl2, pa_page]
          generalize c.mstatus.getLsbD 19 = mxr
          generalize c.mstatus.getLsbD 18 = sum
          cases mode <;> simp only [userOk, modeCode] <;>
            rcases Bool.eq_false_or_eq_true (pte2.getLsbD 4) with hu | hu <;>
            cases permOk pte2 mxr (code acc) <;> cases adOk pte2 (code acc) <;> cases sum <;> cases acc <;>
            simp [hu, code, -BitVec.getLsbD_eq_getElem]
        · rw [if_neg hl2, if_neg hl2]

/-- The specification's walk, unfolded. -/
theorem spec_eq (mem : BitVec 32 → BitVec 32) (satp v : BitVec 32) (acc : Access) (mode : Mode) (sum mxr : Bool) :
    Sv32.translate (busView mem) satp.toNat v.toNat acc mode sum mxr =
      let pte1 := mem (rootEntry satp v)
      if ¬ V pte1.toNat ∨ (¬ R pte1.toNat ∧ W pte1.toNat) then none
      else if R pte1.toNat ∨ X pte1.toNat then
        if leafOk pte1.toNat 1 acc mode sum mxr then some (ppn pte1.toNat * 2 ^ 12 + v.toNat % 2 ^ (12 + 10 * 1)) else none
      else
        let pte2 := mem (nextEntry pte1 v)
        if ¬ V pte2.toNat ∨ (¬ R pte2.toNat ∧ W pte2.toNat) then none
        else if R pte2.toNat ∨ X pte2.toNat then
          if leafOk pte2.toNat 0 acc mode sum mxr then some (ppn pte2.toNat * 2 ^ 12 + v.toNat % 2 ^ (12 + 10 * 0)) else none
        else none := by
  rfl

/-- The walk of the code against the manual's. -/
theorem walk_agrees (mem : BitVec 32 → BitVec 32) (c : Ctx) (v : BitVec 32) (acc : Access) (mode : Mode)
    (he : effPriv c.mstatus c.priv acc = modeCode mode)
    (hx : ¬ SuperUserFetch mem c.satp v acc mode (c.mstatus.getLsbD 18)) :
    va2pa mem c v (code acc) =
      (Sv32.translate (busView mem) c.satp.toNat v.toNat acc mode (c.mstatus.getLsbD 18) (c.mstatus.getLsbD 19)).map
        (BitVec.ofNat 32) := by
  rw [va2pa_eq mem c v acc mode he, spec_eq]
  dsimp only
  have hx : ¬ (acc = .fetch ∧ mode = .supervisor ∧ c.mstatus.getLsbD 18 = true ∧
      U (mem (rootEntry c.satp v)).toNat ∧ X (mem (rootEntry c.satp v)).toNat) := hx
  generalize mem (rootEntry c.satp v) = pte1 at hx ⊢
  generalize mem (nextEntry pte1 v) = pte2
  have hleaf : ∀ (x : BitVec 32) (i : Nat), leafOk x.toNat i acc mode (c.mstatus.getLsbD 18) (c.mstatus.getLsbD 19) ↔
      (permOk x (c.mstatus.getLsbD 19) (code acc) = true ∧ userOk x acc mode (c.mstatus.getLsbD 18) = true) ∧
        ppn x.toNat % 2 ^ (10 * i) = 0 ∧ adOk x (code acc) = true := by
    intro x i
    unfold leafOk
    rw [permitted_iff, ad_iff]
  have hu : permOk pte1 (c.mstatus.getLsbD 19) (code acc) = true →
      userOk1 pte1 mode (c.mstatus.getLsbD 18) = userOk pte1 acc mode (c.mstatus.getLsbD 18) := by
    intro hp
    simp only [flag_iff] at hx
    unfold userOk1 userOk
    revert hx hp
    cases acc <;> cases mode <;> simp only [permOk, code] <;> cases c.mstatus.getLsbD 18 <;> cases pte1.getLsbD 4 <;>
      cases pte1.getLsbD 3 <;> simp
  simp only [hleaf]
  by_cases h1 : ¬ V pte1.toNat ∨ (¬ R pte1.toNat ∧ W pte1.toNat)
  · rw [if_pos h1, if_pos h1]; rfl
  · rw [if_neg h1, if_neg h1]
    by_cases hl : R pte1.toNat ∨ X pte1.toNat
    · rw [if_pos hl, if_pos hl]
      by_cases hp : permOk pte1 (c.mstatus.getLsbD 19) (code acc) = true
      · rw [hu hp]
        simp only [hp, true_and]
        split <;> rfl
      · simp [hp, -BitVec.getLsbD_eq_getElem]
    · rw [if_neg hl, if_neg hl]
      by_cases h2 : ¬ V pte2.toNat ∨ (¬ R pte2.toNat ∧ W pte2.toNat)
      · rw [if_pos h2, if_pos h2]; rfl
      · rw [if_neg h2, if_neg h2]
        by_cases hl2 : R pte2.toNat ∨ X pte2.toNat
        · rw [if_pos hl2, if_pos hl2]
          simp only [Nat.mul_zero, Nat.pow_zero, Nat.mod_one, true_and, and_assoc]
          split <;> rfl
        · rw [if_neg hl2, if_neg hl2]; rfl

/-- What the manual prescribes for an access at privilege `priv` (3: machine), including when translation is
off. -/
def specAccess (mem : Nat → Nat) (mstatus satp : BitVec 32) (priv : Nat) (v : BitVec 32) (acc : Access) : Option Nat :=
  let eff := effPriv mstatus priv acc
  if satp.toNat / 2 ^ 31 = 0 ∨ eff = 3 then some v.toNat
  else Sv32.translate mem satp.toNat v.toNat acc (if eff = 0 then .user else .supervisor)
    (decide (mstatus.toNat / 2 ^ 18 % 2 = 1)) (decide (mstatus.toNat / 2 ^ 19 % 2 = 1))

theorem enabled_iff (c : Ctx) (acc : Access) :
    (if code acc = 0 then fetchTranslation c else dataTranslation c) = true ↔
      ¬ (c.satp.toNat / 2 ^ 31 = 0 ∨ effPriv c.mstatus c.priv acc = 3) := by
  have hs : c.satp &&& 0x80000000#32 ≠ 0#32 ↔ ¬ c.satp.toNat / 2 ^ 31 = 0 := by
    have : c.satp &&& 0x80000000#32 = 0#32 ↔ c.satp.getLsbD 31 = false := by
      rw [show (0x80000000#32 : BitVec 32) = BitVec.twoPow 32 31 by decide, BitVec.and_twoPow]
      cases c.satp.getLsbD 31 <;> decide
    rw [ne_eq, this]
    have h := flag_iff c.satp 31
    unfold flag at h
    have hl := c.satp.isLt
    cases hb : c.satp.getLsbD 31
    · rw [hb] at h; simp at h; simp; omega
    · rw [hb] at h; simp at h; simp; omega
  have he := eff_eq c.mstatus c.priv acc
  cases acc with
  | fetch =>
    simp only [code, if_true, fetchTranslation, Bool.and_eq_true, decide_eq_true_eq, hs, not_or]
    have : effPriv c.mstatus c.priv .fetch = c.priv := by simp [effPriv]
    rw [this]
  | load =>
    have h2 : effDataPriv c = effPriv c.mstatus c.priv .load := by
      rw [← he]; unfold effDataPriv; cases c.mstatus.getLsbD 17 <;> simp [code]
    simp only [code, Nat.one_ne_zero, if_false, dataTranslation, Bool.and_eq_true, decide_eq_true_eq, hs, not_or, h2, ne_eq]
  | store =>
    have h2 : effDataPriv c = effPriv c.mstatus c.priv .store := by
      rw [← he]; unfold effDataPriv; cases c.mstatus.getLsbD 17 <;> simp [code]
    simp only [code, show ¬ (2 : Nat) = 0 by decide, if_false, dataTranslation, Bool.and_eq_true, decide_eq_true_eq, hs, not_or,
      h2, ne_eq]

/-- **C31 (partial).**  For every memory, root table, status register, privilege and virtual address the
reference model translates, or faults, exactly as the manual prescribes — except for supervisor instruction
fetches through a user 4 MiB page with SUM=1, which it allows (`C31_violated`).  Missing for the full claim:
that case. -/
theorem C31_translate_partial (s : RefMem.State) (c : Ctx) (v : BitVec 32) (acc : Access)
    (he : effPriv c.mstatus c.priv acc ∈ [0, 1, 3])
    (hx : ¬ SuperUserFetch (RefMem.loadWord s) c.satp v acc
      (if effPriv c.mstatus c.priv acc = 0 then .user else .supervisor) (c.mstatus.getLsbD 18)) :
    RefMmu.translate s c v (code acc) =
      (specAccess (busView (RefMem.loadWord s)) c.mstatus c.satp c.priv v acc).map (BitVec.ofNat 32) := by
  unfold RefMmu.translate specAccess
  dsimp only
  by_cases h : c.satp.toNat / 2 ^ 31 = 0 ∨ effPriv c.mstatus c.priv acc = 3
  · rw [if_pos h, if_neg (fun e => (enabled_iff c acc).mp e h)]
    simp
  · rw [if_neg h, if_pos ((enabled_iff c acc).mpr h)]
    have hm : effPriv c.mstatus c.priv acc =
        modeCode (if effPriv c.mstatus c.priv acc = 0 then .user else .supervisor) := by
      simp only [List.mem_cons, List.not_mem_nil, or_false] at he
      rcases he with e | e | e
      · rw [e]; rfl
      · rw [e]; rfl
      · exact absurd (.inr e) h
    rw [walk_agrees _ c v acc _ hm hx]
    have f18 : decide (c.mstatus.toNat / 2 ^ 18 % 2 = 1) = c.mstatus.getLsbD 18 := by
      rw [Bool.eq_iff_iff, decide_eq_true_eq]; exact flag_iff c.mstatus 18
    have f19 : decide (c.mstatus.toNat / 2 ^ 19 % 2 = 1) = c.mstatus.getLsbD 19 := by
      rw [Bool.eq_iff_iff, decide_eq_true_eq]; exact flag_iff c.mstatus 19
    rw [f18, f19]

/-- **C31 (data accesses).**  Loads and stores: no exception. -/
theorem C31_data (s : RefMem.State) (c : Ctx) (v : BitVec 32) (acc : Access) (ha : acc ≠ .fetch)
    (he : effPriv c.mstatus c.priv acc ∈ [0, 1, 3]) :
    RefMmu.translate s c v (code acc) =
      (specAccess (busView (RefMem.loadWord s)) c.mstatus c.satp c.priv v acc).map (BitVec.ofNat 32) :=
  C31_translate_partial s c v acc he (fun h => ha h.1)

/-- **C31 (completeness).**  Whatever the manual allows is translated to the address it prescribes; the
exception is only ever too permissive. -/
theorem C31_allowed (s : RefMem.State) (c : Ctx) (v : BitVec 32) (acc : Access) (pa : Nat)
    (he : effPriv c.mstatus c.priv acc ∈ [0, 1, 3])
    (h : specAccess (busView (RefMem.loadWord s)) c.mstatus c.satp c.priv v acc = some pa) :
    RefMmu.translate s c v (code acc) = some (BitVec.ofNat 32 pa) := by
  by_cases hoff : c.satp.toNat / 2 ^ 31 = 0 ∨ effPriv c.mstatus c.priv acc = 3
  · have : RefMmu.translate s c v (code acc) = some v := by
      unfold RefMmu.translate; rw [if_neg (fun e => (enabled_iff c acc).mp e hoff)]
    rw [this]
    unfold specAccess at h
    dsimp only at h
    rw [if_pos hoff] at h
    cases h; simp
  · rw [C31_translate_partial s c v acc he ?_, h]
    · rfl
    · rintro ⟨h1, h2, h3, h4, h5⟩
      unfold specAccess at h
      dsimp only at h
      rw [if_neg hoff, spec_eq] at h
      dsimp only at h
      rw [h2, h1] at h
      have h4 : U (RefMem.loadWord s (rootEntry c.satp v)).toNat := h4
      have h5 : X (RefMem.loadWord s (rootEntry c.satp v)).toNat := h5
      by_cases hv : ¬ V (RefMem.loadWord s (rootEntry c.satp v)).toNat ∨
          (¬ R (RefMem.loadWord s (rootEntry c.satp v)).toNat ∧ W (RefMem.loadWord s (rootEntry c.satp v)).toNat)
      · rw [if_pos hv] at h; cases h
      · rw [if_neg hv, if_pos (.inr h5)] at h
        rw [if_neg (fun hl => (hl.1.2 h4).1 rfl)] at h
        cases h

/-! ## Concrete cases -/
namespace MmuRun
open Verif.RefMem

/-- Root table at 0x80001000.  Entry 0: superpage 0x80400000, X, user.  Entry 1: points to the table at
0x80002000.  Entry 2: superpage 0x80800000 R W X, supervisor.  In 0x80002000, entry 3: page 0x80005000, R W,
user. -/
def s0 : State :=
  { ram := fun i =>
      if i = 0x400#32 then 0x201000D9#32
      else if i = 0x401#32 then 0x20000801#32
      else if i = 0x402#32 then 0x202000CF#32
      else if i = 0x803#32 then 0x200014D7#32
      else 0#32
    io := fun _ => none
    timerOff := 0#64, timerCmp := 0#64, mip := 0#32, sip := 0#32, out := []
    store := false, storeAddr := 0#32, storeData := 0#32, storeStrb := 0#32, resValid := false, resAddr := 0#32 }

def satp : BitVec 32 := 0x80080001#32
def user : Ctx := ⟨0#32, satp, 0⟩
def super : Ctx := ⟨0#32, satp, 1⟩
def superSum : Ctx := ⟨0x40000#32, satp, 1⟩

/-- Virtual page 0x00403 through two levels; stores allowed; user only unless SUM. -/
example : RefMmu.translate s0 user 0x00403ABC#32 1 = some 0x80005ABC#32 ∧ RefMmu.translate s0 user 0x00403ABC#32 2 = some 0x80005ABC#32 ∧
    RefMmu.translate s0 user 0x00403ABC#32 0 = none ∧ RefMmu.translate s0 super 0x00403ABC#32 1 = none ∧
    RefMmu.translate s0 superSum 0x00403ABC#32 1 = some 0x80005ABC#32 := by decide +kernel
example : specAccess (busView (loadWord s0)) 0#32 satp 0 0x00403ABC#32 .load = some 0x80005ABC := by decide +kernel
/-- A supervisor superpage. -/
example : RefMmu.translate s0 super 0x00912345#32 0 = some 0x80912345#32 ∧ RefMmu.translate s0 user 0x00912345#32 0 = none := by
  decide +kernel
/-- MPRV: a machine-mode load with MPP=U is translated. -/
example : RefMmu.translate s0 ⟨0x20000#32, satp, 3⟩ 0x00403ABC#32 1 = some 0x80005ABC#32 ∧
    RefMmu.translate s0 ⟨0x20000#32, satp, 3⟩ 0x00403ABC#32 0 = some 0x00403ABC#32 := by decide +kernel
example : effPriv super.mstatus super.priv .load ∈ [0, 1, 3] := by decide
example : ¬ SuperUserFetch (loadWord s0) satp 0x00912345#32 .fetch .supervisor true := by
  rintro ⟨-, -, -, h, -⟩
  exact absurd h (by decide +kernel)

/-- **C31 (finding).**  With SUM=1 the reference model lets the supervisor execute from a user 4 MiB page; the
manual (and the model's own check for 4 KiB pages) prescribes a page fault. -/
theorem C31_violated :
    RefMmu.translate s0 superSum 0x00000123#32 0 = some 0x80400123#32 ∧
    specAccess (busView (loadWord s0)) superSum.mstatus superSum.satp superSum.priv 0x00000123#32 .fetch = none := by
  decide +kernel

/-- With checking enabled the reference model never reports a page fault of its own where the core has
none: it stops the simulation; and it adopts every fault the core reports. -/
theorem C31_fix (mem : BitVec 32 → BitVec 32) (c : Ctx) (v : BitVec 32) (type : Nat) (dutFault : Bool) :
    va2paFix mem c v type true dutFault =
      match va2pa mem c v type, dutFault with
      | some p, false => .ok p
      | some _, true => .fault
      | none, true => .fault
      | none, false => .abort := by
  unfold va2paFix
  cases va2pa mem c v type <;> cases dutFault <;> rfl

end MmuRun
end Verif.Props

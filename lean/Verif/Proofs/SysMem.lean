import Verif.Proofs.SysRun
import Verif.Proofs.CoreRef
import Verif.Props.RefCsr
/- The reference's memory and address translation on a state that agrees with the core's. -/
namespace Verif.SysRef
open Verif.Core Verif.CoreRef Verif.Decode Verif.Isa Verif.Spec.ByteMem Verif.Csr Verif.Csr.Spec
open Verif.Spec.Sv32 (Access)
open Verif.RefCpu (Env exec)
open Verif.RefCpu.Spec

/-! ### Memory -/

theorem loadWord_word (s : RefMem.State) (p : W) : RefMem.loadWord s p = word (RefMem.view s) p := by
  have hp := p.isLt
  have e : (p - BitVec.ofNat 32 (p.toNat % 4)).toNat = p.toNat / 4 * 4 := by
    rw [BitVec.toNat_sub, BitVec.toNat_ofNat]
    omega
  rw [RefMem.loadWord_congr s (a := p) (b := p - BitVec.ofNat 32 (p.toNat % 4))
    (by apply BitVec.eq_of_toNat_eq; rw [RefMem.wordOf_toNat, RefMem.wordOf_toNat, e]; omega),
    Props.loadWord_view _ _ (by rw [e]; omega)]
  rfl

/-- What a store that is not to a device leaves alone. -/
structure Frame (s t : RefMem.State) : Prop where
  cmp : t.timerCmp = s.timerCmp
  off : t.timerOff = s.timerOff
  mip : t.mip = s.mip
  sip : t.sip = s.sip
  addr : t.storeAddr = s.storeAddr

theorem storeWord_same (now : BitVec 64) (s : RefMem.State) (a v : W) (h : ¬ RefMem.timerWord a) :
    Frame s (RefMem.storeWord now s a v) := by
  unfold RefMem.timerWord at h
  simp only [not_or] at h
  unfold RefMem.storeWord
  dsimp only
  rw [if_neg h.1, if_neg h.2.1, if_neg h.2.2.1, if_neg h.2.2.2]
  split
  · exact ⟨rfl, rfl, rfl, rfl, rfl⟩
  · split <;> exact ⟨rfl, rfl, rfl, rfl, rfl⟩

theorem storeData_frame (now : BitVec 64) (s : RefMem.State) (h : ¬ Props.Device s.storeAddr) :
    Frame s (RefMem.storeData now s) := by
  rw [Props.storeData_plain now s h]
  have h1 : Frame s (RefMem.dropReservation s) := by
    unfold RefMem.dropReservation
    split <;> exact ⟨rfl, rfl, rfl, rfl, rfl⟩
  have ha : (RefMem.dropReservation s).storeAddr = s.storeAddr := h1.addr
  have h2 : Frame (RefMem.dropReservation s) (RefMem.maskedWrite now (RefMem.dropReservation s)) := by
    unfold RefMem.maskedWrite
    dsimp only
    split
    · exact storeWord_same _ _ _ _ (by rw [ha]; exact (Props.not_device h).1)
    · exact ⟨rfl, rfl, rfl, rfl, rfl⟩
  exact ⟨h2.cmp.trans h1.cmp, h2.off.trans h1.off, h2.mip.trans h1.mip, h2.sip.trans h1.sip, h2.addr.trans h1.addr⟩

theorem store_frame {now : BitVec 64} {s t : RefMem.State} {f3 : BitVec 3} {p v : W} (h : ¬ Props.Device p)
    (hs : RefMem.storeInst now s f3 p v = some t) : Frame { s with storeAddr := p } t := by
  unfold RefMem.storeInst at hs
  split at hs
  · cases hs
  · simp only [Option.some.injEq] at hs
    subst hs
    have := storeData_frame now { RefMem.begin s with
      store := true, storeAddr := p
      storeData := if f3 = 0#3 then v &&& 0xFF#32 else if f3 = 1#3 then v &&& 0xFFFF#32 else v
      storeStrb := if f3 = 0#3 then 1#32 else if f3 = 1#3 then 3#32 else 15#32 } h
    exact ⟨this.cmp, this.off, this.mip, this.sip, this.addr⟩

theorem amo_frame {now : BitVec 64} {s t : RefMem.State} {op : Props.AmoOp} {p v : W} {d : Option W} (h : ¬ Props.Device p)
    (h4 : p.toNat % 4 = 0) (hs : RefMem.amo now s op.code p v = some (d, t)) : Frame { s with storeAddr := p } t := by
  rw [Props.amo_rmw now s op p v h4] at hs
  simp only [Option.some.injEq, Prod.mk.injEq] at hs
  obtain ⟨-, hs⟩ := hs
  subst hs
  have := storeData_frame now { RefMem.begin s with
    store := true, storeAddr := p, storeStrb := 15#32, storeData := op.result (RefMem.loadWord s p) v } h
  exact ⟨this.cmp, this.off, this.mip, this.sip, this.addr⟩

theorem lr_frame {now : BitVec 64} {s t : RefMem.State} {p v : W} {d : Option W} (h : ¬ Props.Device s.storeAddr)
    (h4 : p.toNat % 4 = 0) (hs : RefMem.amo now s 2#5 p v = some (d, t)) : Frame s t := by
  rw [Props.lr_eq now s p v h4] at hs
  simp only [Option.some.injEq, Prod.mk.injEq] at hs
  obtain ⟨-, hs⟩ := hs
  subst hs
  have := storeData_frame now { RefMem.begin s with resValid := true, resAddr := p } h
  exact ⟨this.cmp, this.off, this.mip, this.sip, this.addr⟩

/-! ### Translation -/

variable {e : Env} {x : Ext} {s : RefCpu.State} {v p : W} {acc : Access}

/-- `specAccess` on the reference's memory. -/
theorem tr_ref (hm : RefMem.view s.mem = x.mem) (hs : Same x.csr s) :
    tr x acc v = (Props.specAccess (Props.busView (RefMem.loadWord s.mem)) s.ctx.mstatus s.ctx.satp s.ctx.priv v acc).map
      (BitVec.ofNat 32) := by
  have : RefMem.loadWord s.mem = word x.mem := by
    funext p
    rw [loadWord_word, hm]
  unfold tr RefCpu.State.ctx
  rw [this, hs.file, hs.priv]

/-- Is the access translated? -/
def enabled (s : RefCpu.State) (acc : Access) : Bool :=
  if RefMmu.code acc = 0 then RefMmu.fetchTranslation s.ctx else RefMmu.dataTranslation s.ctx

theorem tr_off (hm : RefMem.view s.mem = x.mem) (hs : Same x.csr s) (hn : enabled s acc = false) : tr x acc v = some v := by
  rw [tr_ref hm hs]
  have h : s.ctx.satp.toNat / 2 ^ 31 = 0 ∨ Props.effPriv s.ctx.mstatus s.ctx.priv acc = 3 :=
    Decidable.not_not.1 fun hh => by
      have := (Props.enabled_iff s.ctx acc).2 hh
      unfold enabled at hn
      rw [hn] at this
      exact absurd this (by decide)
  unfold Props.specAccess
  dsimp only
  rw [if_pos h]
  simp

theorem level_acc {c : Csr.State} (h : Level c) (acc : Access) : Props.effPriv (c.file .mstatus) c.priv acc ∈ [0, 1, 3] := by
  cases acc with
  | fetch => exact h.1
  | load => exact h.2
  | store =>
    have : Props.effPriv (c.file .mstatus) c.priv .store = Props.effPriv (c.file .mstatus) c.priv .load := by simp [Props.effPriv]
    rw [this]
    exact h.2

/-- The reference's walk, when the manual allows the access. -/
theorem walk_ok (hm : RefMem.view s.mem = x.mem) (hs : Same x.csr s) (hl : Level x.csr) (he : enabled s acc = true)
    (ht : tr x acc v = some p) : RefMmu.va2pa (RefMem.loadWord s.mem) s.ctx v (RefMmu.code acc) = some p := by
  rw [tr_ref hm hs, Option.map_eq_some_iff] at ht
  obtain ⟨q, h1, h2⟩ := ht
  have := Props.C31_allowed s.mem s.ctx v acc q (by
    have := level_acc hl acc
    unfold RefCpu.State.ctx
    rw [hs.file, hs.priv]
    exact this) h1
  unfold RefMmu.translate at this
  unfold enabled at he
  rw [if_pos he, h2] at this
  exact this

theorem walk_fault (hm : RefMem.view s.mem = x.mem) (hs : Same x.csr s) (hl : Level x.csr)
    (hx : ¬ Props.SuperUserFetch (word x.mem) (x.csr.file .satp) v acc (if Props.effPriv (x.csr.file .mstatus) x.csr.priv acc = 0
      then .user else .supervisor) ((x.csr.file .mstatus).getLsbD 18))
    (ht : tr x acc v = none) : enabled s acc = true ∧ RefMmu.va2pa (RefMem.loadWord s.mem) s.ctx v (RefMmu.code acc) = none := by
  have he : enabled s acc = true := by
    cases h : enabled s acc with
    | true => rfl
    | false => rw [tr_off hm hs h] at ht; cases ht
  have hw : RefMem.loadWord s.mem = word x.mem := by
    funext p
    rw [loadWord_word, hm]
  have := Props.C31_translate_partial s.mem s.ctx v acc (by
    have := level_acc hl acc
    unfold RefCpu.State.ctx
    rw [hs.file, hs.priv]
    exact this) (by
      unfold RefCpu.State.ctx
      rw [hs.file, hs.priv, hw]
      exact hx)
  rw [← tr_ref hm hs, ht] at this
  unfold RefMmu.translate at this
  rw [if_pos (by unfold enabled at he; exact he)] at this
  exact ⟨he, this⟩

/-- The core's flag for the access, if the reference asks for it. -/
def Flag (e : Env) (acc : Access) (b : Bool) : Prop := e.check = true → e.fault (RefMmu.code acc) = b

theorem fix_ok (hf : Flag e acc false) (h : RefMmu.va2pa (RefMem.loadWord s.mem) s.ctx v (RefMmu.code acc) = some p) :
    s.fix e v (RefMmu.code acc) = .ok p := by
  unfold RefCpu.State.fix RefMmu.va2paFix
  dsimp only
  rw [h]
  cases hc : e.check with
  | false => rfl
  | true => rw [hf hc]; rfl

theorem fix_fault (hf : Flag e acc true) (h : RefMmu.va2pa (RefMem.loadWord s.mem) s.ctx v (RefMmu.code acc) = none) :
    s.fix e v (RefMmu.code acc) = .fault := by
  unfold RefCpu.State.fix RefMmu.va2paFix
  dsimp only
  rw [h]
  cases hc : e.check with
  | false => rfl
  | true => rw [hf hc]; rfl

theorem ite_some {c : Prop} [Decidable c] {y a : Nat} (h : (if c then some y else none) = some a) : y = a := by
  split at h
  · exact Option.some.inj h
  · cases h

/-- Loads and stores that are both allowed go to the same address. -/
theorem tr_same {q : W} (h1 : tr x .load v = some p) (h2 : tr x .store v = some q) : p = q := by
  unfold tr at h1 h2
  rw [Option.map_eq_some_iff] at h1 h2
  obtain ⟨a, h1, rfl⟩ := h1
  obtain ⟨b, h2, rfl⟩ := h2
  congr 1
  unfold Props.specAccess at h1 h2
  have he : Props.effPriv (x.csr.file .mstatus) x.csr.priv .store = Props.effPriv (x.csr.file .mstatus) x.csr.priv .load := by
    simp [Props.effPriv]
  rw [he] at h2
  dsimp only at h1 h2
  split at h1
  · next h => rw [if_pos h] at h2; rw [← Option.some.inj h1, ← Option.some.inj h2]
  · next h =>
    rw [if_neg h] at h2
    rw [Props.spec_eq] at h1 h2
    dsimp only at h1 h2
    generalize word x.mem (Props.rootEntry (x.csr.file .satp) v) = pte1 at h1 h2
    generalize word x.mem (Props.nextEntry pte1 v) = pte2 at h1 h2
    split at h1
    · cases h1
    · next g =>
      rw [if_neg g] at h2
      split at h1
      · next g2 =>
        rw [if_pos g2] at h2
        exact (ite_some h1).symm.trans (ite_some h2)
      · next g2 =>
        rw [if_neg g2] at h2
        split at h1
        · cases h1
        · next g3 =>
          rw [if_neg g3] at h2
          split at h1
          · next g4 =>
            rw [if_pos g4] at h2
            exact (ite_some h1).symm.trans (ite_some h2)
          · cases h1

end Verif.SysRef

import Verif.Model.ICacheTopBits

/-
`comb_core` on the records of icache_module.h does what Model/ICache says.
-/
namespace Verif.ICacheBits
open Verif.ICache

/-! ### Records of the model and of the code -/

/-- The code's number of a state. -/
def stC : State → W32
  | .idle => 0#32
  | .swapIn => 1#32
  | .waitDc => 2#32
  | .cancelWait => 4#32

/-- The registers as the code has them; `j`: what `miss_txid_r` holds while it is not valid. -/
def conc (r : Regs) (j : Tx) : RRegs where
  reqV := r.reqV
  reqPc := r.reqPc
  reqIdx := idxR r.reqPc
  ready := r.ready
  st := stC r.st
  axi := r.busy
  resp := r.resp
  repl := BitVec.ofNat 32 r.repl.val
  ppn := r.ppn.setWidth 32
  txV := r.tx.isSome
  tx := BitVec.ofNat 32 (r.tx.getD j).val
  seen := r.seen
  infl := r.infl
  canc := r.canc
  pInfl := r.pInfl
  pDone := r.pDone
  pHit := r.pHit
  pWord := BitVec.ofNat 32 r.pWord.val
  pData := r.pData
  lookP := false
  lookIdx := 0#32
  lookPc := 0#32

/-- The inputs without the values that are not valid. -/
def RIn.abs (i : RIn) : In where
  kill := i.refetch
  flush := i.flush
  req := if i.reqV then some i.pc else none
  xl := if i.ppnV then some (if i.fault then .fault else .page (i.ppn.setWidth 20)) else none
  mReady := i.mReady
  mAcc := if i.mAcc then some (txn i.mAccId) else none
  mResp := if i.mRespV then some (txn i.mRespId, i.mResp) else none
  probe := if i.dcV then some (if i.dcMiss then none else some i.dcData) else none

/-- The table write without the values that are not valid. -/
def RTw.abs (t : RTw) : TabW where
  we := if t.we then some (t.idx.setWidth 6, wayN t.way, t.tag.setWidth 20, t.data) else none
  inval := t.inval

/-! ### Numbers -/

theorem txn_ofNat (t : Tx) : txn (BitVec.ofNat 32 t.val) = t := by
  revert t; decide

theorem ofNat_and (t : Tx) : BitVec.ofNat 32 t.val &&& 0xF#32 = BitVec.ofNat 32 t.val := by
  revert t; decide

theorem and15 (v : W32) : v &&& 0xF#32 = BitVec.ofNat 32 (txn v).val := by
  apply BitVec.eq_of_toNat_eq
  rw [BitVec.toNat_and, show (0xF#32).toNat = 2 ^ 4 - 1 from rfl, Nat.and_two_pow_sub_one_eq_mod]
  simp only [txn, BitVec.toNat_ofNat]
  omega

theorem ofNat_beq (t u : Tx) : (BitVec.ofNat 32 t.val == BitVec.ofNat 32 u.val) = decide (t = u) := by
  revert t u; decide

theorem txn_and (v : W32) : txn (v &&& 0xF#32) = txn v := by rw [and15, txn_ofNat]

theorem setT_eq (f : Tx → Bool) (v : W32) (b : Bool) : setT f v b = setB f (txn v) b := rfl

theorem wayN_ofNat (w : Way) : wayN (BitVec.ofNat 32 w.val) = w := by revert w; decide

theorem idxR_low (pc : W32) : (idxR pc).setWidth 6 = idxOf pc := by
  apply BitVec.eq_of_getLsbD_eq
  intro k hk
  simp only [idxR, idxOf, BitVec.getLsbD_setWidth, BitVec.getLsbD_and, BitVec.getLsbD_ushiftRight, BitVec.getLsbD_extractLsb', hk,
    decide_true, Bool.true_and]
  have : (63#32).getLsbD k = true := by
    have : k = 0 ∨ k = 1 ∨ k = 2 ∨ k = 3 ∨ k = 4 ∨ k = 5 := by omega
    rcases this with rfl | rfl | rfl | rfl | rfl | rfl <;> rfl
  rw [this, Bool.and_true]

theorem idxR_eq (pc : W32) : idxR pc = (idxOf pc).setWidth 32 := by
  apply BitVec.eq_of_getLsbD_eq
  intro k hk
  have h63 : (63#32).getLsbD k = decide (k < 6) := by
    revert k; decide
  simp only [idxR, idxOf, BitVec.getLsbD_setWidth, BitVec.getLsbD_and, BitVec.getLsbD_ushiftRight, BitVec.getLsbD_extractLsb', hk,
    decide_true, Bool.true_and, h63]
  exact Bool.and_comm _ _

theorem lineBase_eq (p : Ppn) (pc : W32) : lineBase (p.setWidth 32) (idxR pc) = lineAddr p (idxOf pc) := by
  rw [idxR_eq]; rfl

/-! ### Thrown-away answers -/

/-- What `comb_core` works on after the answers that are thrown away. -/
def base (r : Regs) (j : Tx) (i : RIn) (f g : Tx → Bool) (b : Bool) : Wk :=
  let s := Wk.start (conc r j) i
  { s with rw := { s.rw with infl := f, canc := g }, o := { s.o with memRespReady := b } }

theorem cancR_eq (r : Regs) (j : Tx) (i : RIn) : cancR (conc r j) i = cancResp r i.abs := by
  unfold cancR cancResp RIn.abs
  cases i.mRespV <;> rfl

theorem stC_swap (s : State) : (stC s == 1#32) = decide (s = .swapIn) := by cases s <;> rfl
theorem stC_idle (s : State) : (stC s == 0#32) = decide (s = .idle) := by cases s <;> rfl

theorem mAcc_eq (i : RIn) (t : Tx) : (i.mAcc && (i.mAccId &&& 0xF#32) == BitVec.ofNat 32 t.val) = decide (i.abs.mAcc = some t) := by
  rw [and15, ofNat_beq]
  unfold RIn.abs
  cases i.mAcc <;> simp

theorem accNowR_eq (r : Regs) (j : Tx) (i : RIn) : accNowR (conc r j) i = accNow r i.abs := by
  unfold accNowR accNow
  show (!r.busy && i.mAcc && (i.mAccId &&& 0xF#32) == (BitVec.ofNat 32 (r.tx.getD j).val &&& 0xF#32) && r.tx.isSome) = _
  rw [ofNat_and, Bool.and_assoc (!r.busy), mAcc_eq]
  cases r.tx <;> simp

theorem activeR_eq (r : Regs) (j : Tx) (i : RIn) : activeR (conc r j) i = (active r i.abs).isSome := by
  have hs : sameR (conc r j) i = (i.mRespV && decide (r.st = .swapIn) && decide (r.tx = some (txn i.mRespId)) && accNow r i.abs) := by
    have e := accNowR_eq r j i
    unfold sameR
    rw [← e]
    unfold accNowR
    show (i.mRespV && stC r.st == 1#32 && !r.busy && r.tx.isSome && (i.mRespId &&& 0xF#32) == (BitVec.ofNat 32 (r.tx.getD j).val &&& 0xF#32)
      && i.mAcc && (i.mAccId &&& 0xF#32) == (BitVec.ofNat 32 (r.tx.getD j).val &&& 0xF#32)) =
      (i.mRespV && decide (r.st = .swapIn) && decide (r.tx = some (txn i.mRespId)) && (!r.busy && i.mAcc &&
      (i.mAccId &&& 0xF#32) == (BitVec.ofNat 32 (r.tx.getD j).val &&& 0xF#32) && r.tx.isSome))
    rw [stC_swap, ofNat_and, and15 i.mRespId, ofNat_beq]
    cases h : r.tx with
    | none => simp
    | some t =>
      simp only [Option.isSome_some, Option.getD_some, Option.some.injEq, Bool.and_true]
      rw [show decide (txn i.mRespId = t) = decide (t = txn i.mRespId) from decide_eq_decide.mpr eq_comm]
      cases i.mRespV <;> cases decide (r.st = .swapIn) <;> cases r.busy <;> cases decide (t = txn i.mRespId) <;> cases i.mAcc <;> rfl
  unfold activeR active
  rw [cancR_eq, hs]
  unfold cancResp
  show (i.mRespV && r.tx.isSome && (i.mRespId &&& 0xF#32) == BitVec.ofNat 32 (r.tx.getD j).val && (r.infl (txn i.mRespId) || _) && _) = _
  rw [and15, ofNat_beq]
  cases hv : i.mRespV with
  | false => simp [RIn.abs, hv]
  | true =>
    rw [show i.abs.mResp = some (txn i.mRespId, i.mResp) by simp [RIn.abs, hv]]
    simp only [Bool.true_and]
    cases h : r.tx with
    | none => simp
    | some t =>
      simp only [Option.isSome_some, Option.getD_some, Option.some.injEq, Bool.true_and]
      rw [show decide (txn i.mRespId = t) = decide (t = txn i.mRespId) from decide_eq_decide.mpr eq_comm]
      by_cases ht : t = txn i.mRespId
      · simp only [ht, decide_true, Bool.true_and, Bool.and_true]
        split <;> simp_all
      · simp [ht]

theorem active_data {r : Regs} {i : RIn} {d : Line} (h : active r i.abs = some d) : d = i.mResp := by
  unfold active at h
  cases hv : i.mRespV with
  | false => rw [show i.abs.mResp = none by simp [RIn.abs, hv]] at h; cases h
  | true =>
    rw [show i.abs.mResp = some (txn i.mRespId, i.mResp) by simp [RIn.abs, hv]] at h
    dsimp only at h
    split at h
    · exact (Option.some.inj h).symm
    · cases h

theorem active_tx {r : Regs} {i : In} {d : Line} (h : active r i = some d) : r.tx.isSome = true := by
  unfold active at h
  split at h
  · split at h
    · rename_i hc
      simp only [Bool.and_eq_true, decide_eq_true_eq] at hc
      rw [hc.1.1]; rfl
    · cases h
  · cases h

theorem orphanR_eq (r : Regs) (j : Tx) (i : RIn) : orphanR (conc r j) i = orphan r i.abs := by
  unfold orphanR
  rw [activeR_eq, cancR_eq]
  unfold orphan cancResp
  have hi : (conc r j).infl = r.infl := rfl
  rw [hi]
  cases h : i.abs.mResp with
  | none =>
    have : i.mRespV = false := by
      unfold RIn.abs at h
      cases hv : i.mRespV with
      | false => rfl
      | true => simp [hv] at h
    simp [this]
  | some x =>
    obtain ⟨t, d⟩ := x
    have : i.mRespV = true ∧ txn i.mRespId = t := by
      unfold RIn.abs at h
      cases hv : i.mRespV with
      | false => simp [hv] at h
      | true => simp [hv] at h; exact ⟨rfl, h.1⟩
    simp only [this.1, this.2, Bool.true_and]
    cases active r i.abs <;> rfl

theorem forget_twice (f : Tx → Bool) (v : W32) : setT (setT f v false) v false = setT f v false := by
  funext u; simp only [setT]; split <;> rfl

theorem drop_eq (r : Regs) (j : Tx) (i : RIn) : (Wk.start (conc r j) i).drop (conc r j) i =
    base r j i (drop r i.abs).infl (drop r i.abs).canc (cancResp r i.abs || orphan r i.abs) := by
  unfold Wk.drop
  rw [cancR_eq, orphanR_eq]
  unfold drop
  cases hv : i.mRespV with
  | false =>
    have hm : i.abs.mResp = none := by simp [RIn.abs, hv]
    have hc : cancResp r i.abs = false := by simp [cancResp, hm]
    have ho : orphan r i.abs = false := by simp [orphan, hm]
    simp only [hc, ho, hm]
    rfl
  | true =>
    have hm : i.abs.mResp = some (txn i.mRespId, i.mResp) := by simp [RIn.abs, hv]
    simp only [hm]
    cases hc : cancResp r i.abs <;> cases ho : orphan r i.abs <;>
      simp only [if_true, if_false, Bool.false_eq_true, Bool.or_self, Bool.or_true, Bool.true_or, Bool.or_false]
    · rfl
    · rfl
    · rfl
    · unfold Wk.forget base
      simp only [forget_twice]
      rfl

/-- `drop` changes only the numbers. -/
theorem drop_is (r : Regs) (i : In) : drop r i = { r with infl := (drop r i).infl, canc := (drop r i).canc } := by
  unfold drop
  cases i.mResp with
  | none => rfl
  | some x =>
    obtain ⟨t, d⟩ := x
    dsimp only
    split <;> rfl

end Verif.ICacheBits

import Verif.Proofs.ICachePack

/-
The packed instruction cache does what `call` and `peek` of Model/ICache do.
-/
namespace Verif.ICacheBits
open Verif.ICache
open Verif.TlbKernel (trunc trunc_of_lt trunc_32 Bits)
open Verif.Front (Resp instNop)

/-! ### The tag compare -/

theorem packWay_fold (x : RawMeta) : ∀ (L : List (Fin 8)) (m : RMeta), (L.foldl (packWay x) m).respV = m.respV ∧
    ((L.foldl (packWay x) m).hasInv, (L.foldl (packWay x) m).firstInv) =
      (if m.hasInv then (m.hasInv, m.firstInv) else match L.find? (fun w => !x.val w) with
        | some w => (true, BitVec.ofNat 32 w.val)
        | none => (m.hasInv, m.firstInv)) ∧
    ((L.foldl (packWay x) m).hitV, (L.foldl (packWay x) m).hitWay) =
      (if !x.cmp || m.hitV then (m.hitV, m.hitWay) else match L.find? (fun w => x.val w && x.tag w == x.cmpTag) with
        | some w => (true, BitVec.ofNat 32 w.val)
        | none => (m.hitV, m.hitWay)) := by
  intro L
  induction L with
  | nil => intro m; simp
  | cons w L ih =>
    intro m
    rw [List.foldl_cons]
    obtain ⟨h1, h2, h3⟩ := ih (packWay x m w)
    rw [h1, h2, h3]
    unfold packWay
    rw [List.find?_cons, List.find?_cons]
    cases hv : x.val w <;> cases hi : m.hasInv <;> cases hc : x.cmp <;> cases hh : m.hitV <;> cases ht : (x.tag w == x.cmpTag) <;>
      simp_all

theorem trunc3 (w : Way) : trunc kWay (BitVec.ofNat 32 w.val) = BitVec.ofNat 32 w.val := by
  rw [kWay_eq]
  exact trunc_of_lt (by have := w.isLt; simp only [BitVec.toNat_ofNat]; omega)

/-- The tags a look-up shows. -/
structure TagsIs (rl : RLook) (l : Look) : Prop where
  tags : l.tags = if rl.metaV then some (fun w => if rl.val w then some ((rl.tag w).setWidth 20) else none) else none
  small : ∀ w, (rl.tag w).toNat < 2 ^ 20

theorem way_small (w : Way) : (BitVec.ofNat 32 w.val).toNat < 8 := by revert w; decide

theorem free_is (r : RRegs) (i : RIn) (rl : RLook) (l : Look) (h : TagsIs rl l) : FreeIs (seenMeta r i rl) (freeWay l) := by
  unfold seenMeta
  have hf := packWay_fold (rawMeta r i rl) (List.finRange 8) { respV := true }
  obtain ⟨h1, h2, h3⟩ := hf
  unfold freeWay
  rw [h.tags]
  cases hm : rl.metaV with
  | false =>
    have hp : packMeta (rawMeta r i rl) = {} := by
      unfold packMeta
      rw [show (rawMeta r i rl).respV = rl.metaV from rfl, hm]
      rfl
    rw [hp]
    simp only [Bool.false_eq_true, if_false]
    exact ⟨rfl, fun w h => by cases h⟩
  | true =>
    have hp : packMeta (rawMeta r i rl) = (List.finRange 8).foldl (packWay (rawMeta r i rl)) { respV := true } := by
      unfold packMeta
      rw [show (rawMeta r i rl).respV = rl.metaV from rfl, hm]
      rfl
    rw [hp]
    simp only [if_true]
    generalize (List.finRange 8).foldl (packWay (rawMeta r i rl)) { respV := true } = m at h1 h2 h3
    have hq : (List.finRange 8).find? (fun w => (if rl.val w = true then some (BitVec.setWidth 20 (rl.tag w)) else none : Option Ppn).isNone) =
        (List.finRange 8).find? (fun w => !rl.val w) := by
      congr 1; funext w; cases rl.val w <;> rfl
    rw [hq]
    simp only [show (rawMeta r i rl).val = rl.val from rfl, Bool.false_eq_true, if_false] at h2
    dsimp only at h1
    have hr : m.tr.respV = true := h1
    unfold RMeta.tr at hr
    cases hx : (List.finRange 8).find? (fun w => !rl.val w) with
    | none =>
      rw [hx] at h2
      simp only [Prod.mk.injEq] at h2
      constructor
      · unfold capMeta RMeta.tr
        simp only [h1, h2.1, Bool.not_true, Bool.false_eq_true, if_false, Bool.false_and, Option.isSome_none]
      · intro w h; cases h
    | some w =>
      rw [hx] at h2
      simp only [Prod.mk.injEq] at h2
      constructor
      · unfold capMeta RMeta.tr
        simp only [h1, h2.1, h2.2, Bool.not_true, Bool.false_eq_true, if_false, Option.isSome_some, trunc3, Bool.true_and, decide_eq_true (way_small w)]
      · intro w' h
        obtain rfl := Option.some.inj h
        unfold capMeta RMeta.tr
        simp only [h1, h2.1, h2.2, Bool.not_true, Bool.false_eq_true, if_false, trunc3, Bool.true_and, decide_eq_true (way_small w), if_true]

theorem trunc20 {v : W32} (h : v.toNat < 2 ^ 20) : trunc kTag v = v := trunc_of_lt h

theorem ppn_eq {u v : W32} (hu : u.toNat < 2 ^ 20) (hv : v.toNat < 2 ^ 20) : (u == v) = decide ((u.setWidth 20 : Ppn) = v.setWidth 20) := by
  apply Bool.eq_iff_iff.mpr
  simp only [beq_iff_eq, decide_eq_true_eq]
  constructor
  · rintro rfl; rfl
  · intro h
    have := congrArg (fun x : Ppn => (x.setWidth 32 : W32)) h
    simpa only [low20 _ hu, low20 _ hv] using this

theorem hit_is (r : RRegs) (i : RIn) (rl : RLook) (l : Look) (h : TagsIs rl l) (hp : i.ppn.toNat < 2 ^ 20)
    (hc : metaCtx r i = (true, i.ppn)) : HitIs (seenMeta r i rl) (hitWay l (i.ppn.setWidth 20)) := by
  unfold seenMeta
  have hf := packWay_fold (rawMeta r i rl) (List.finRange 8) { respV := true }
  obtain ⟨h1, h2, h3⟩ := hf
  unfold hitWay
  rw [h.tags]
  cases hm : rl.metaV with
  | false =>
    have hp : packMeta (rawMeta r i rl) = {} := by
      unfold packMeta
      rw [show (rawMeta r i rl).respV = rl.metaV from rfl, hm]
      rfl
    rw [hp]
    simp only [Bool.false_eq_true, if_false]
    exact ⟨rfl, fun w h => by cases h⟩
  | true =>
    have hpk : packMeta (rawMeta r i rl) = (List.finRange 8).foldl (packWay (rawMeta r i rl)) { respV := true } := by
      unfold packMeta
      rw [show (rawMeta r i rl).respV = rl.metaV from rfl, hm]
      rfl
    rw [hpk]
    simp only [if_true]
    have hq : (List.finRange 8).find? (fun w => (rawMeta r i rl).val w && (rawMeta r i rl).tag w == (rawMeta r i rl).cmpTag) =
        (List.finRange 8).find? (fun w => decide ((if rl.val w = true then some (BitVec.setWidth 20 (rl.tag w)) else none : Option Ppn) = some (i.ppn.setWidth 20))) := by
      congr 1; funext w
      show (rl.val w && trunc kTag (rl.tag w) == trunc kTag (metaCtx r i).2) = _
      rw [hc, trunc20 (h.small w), trunc20 hp, ppn_eq (h.small w) hp]
      cases rl.val w <;> simp
    rw [hq] at h3
    rw [show (rawMeta r i rl).cmp = (metaCtx r i).1 from rfl, hc] at h3
    generalize (List.finRange 8).foldl (packWay (rawMeta r i rl)) { respV := true } = m at h1 h2 h3
    simp only [Bool.not_true, Bool.or_false, Bool.false_eq_true, if_false] at h3
    dsimp only at h1
    cases hx : (List.finRange 8).find? (fun w => decide ((if rl.val w = true then some (BitVec.setWidth 20 (rl.tag w)) else none : Option Ppn) = some (i.ppn.setWidth 20))) with
    | none =>
      rw [hx] at h3
      simp only [Prod.mk.injEq] at h3
      constructor
      · unfold capMeta RMeta.tr
        simp only [h1, h3.1, Bool.not_true, Bool.false_eq_true, if_false, Bool.false_and, Bool.and_false, Option.isSome_none]
      · intro w h; cases h
    | some w =>
      rw [hx] at h3
      simp only [Prod.mk.injEq] at h3
      constructor
      · unfold capMeta RMeta.tr
        simp only [h1, h3.1, h3.2, Bool.not_true, Bool.false_eq_true, if_false, Option.isSome_some, trunc3, Bool.true_and, decide_eq_true (way_small w)]
      · intro w' h
        obtain rfl := Option.some.inj h
        unfold capMeta RMeta.tr
        simp only [h1, h3.1, h3.2, Bool.not_true, Bool.false_eq_true, if_false, trunc3, Bool.true_and, decide_eq_true (way_small w), if_true]

/-- The compare is made with the page number whenever the state machine uses its result. -/
theorem ctx_eq (r : Regs) (j : Tx) (i : RIn) (hp : i.ppn.toNat < 2 ^ 20) (hk : i.flush = true → i.refetch = true)
    (hst : r.st = .idle) (hr : i.refetch = false) (hv : i.ppnV = true) (hf : i.fault = false) (hq : r.reqV = true ∨ i.reqV = true) :
    metaCtx (conc r j) i = (true, i.ppn) := by
  have hfl : i.flush = false := by
    cases h : i.flush with
    | false => rfl
    | true => rw [hk h] at hr; cases hr
  have ha : i.ppn &&& 0xFFFFF#32 = i.ppn := by
    apply BitVec.eq_of_toNat_eq
    rw [BitVec.toNat_and, show (0xFFFFF#32).toNat = 2 ^ 20 - 1 from rfl, Nat.and_two_pow_sub_one_eq_mod, Nat.mod_eq_of_lt hp]
  have h0 : (conc r j).st = 0#32 := by show stC r.st = _; rw [hst]; rfl
  unfold metaCtx
  rw [show (conc r j).reqV = r.reqV from rfl, h0]
  simp only [hr, hfl, hv, hf, ha]
  rcases hq with hq | hq
  · rw [hq]; rfl
  · rw [hq]; cases r.reqV <;> rfl

/-! ### The registers and inputs pass through unchanged -/

theorem conc_tr (r : Regs) (j : Tx) : (conc r j).tr = { conc r j with lookIdx := 0#32 } := by
  have h1 : trunc 3 (stC r.st) = stC r.st := trunc_of_lt (by cases r.st <;> decide)
  have h2 : trunc kTag (r.ppn.setWidth 32) = r.ppn.setWidth 32 := trunc20 (by
    simp only [BitVec.toNat_setWidth]; have := r.ppn.isLt; omega)
  have h3 : trunc 4 (BitVec.ofNat 32 (r.tx.getD j).val) = BitVec.ofNat 32 (r.tx.getD j).val :=
    trunc_of_lt (by have := (r.tx.getD j).isLt; simp only [BitVec.toNat_ofNat]; omega)
  have h4 : trunc kWord (BitVec.ofNat 32 r.pWord.val) = BitVec.ofNat 32 r.pWord.val := by
    rw [kWord_eq]
    exact trunc_of_lt (by have := r.pWord.isLt; simp only [BitVec.toNat_ofNat]; omega)
  unfold RRegs.tr conc
  simp only [h1, h2, h3, h4, trunc3]
  rfl

theorem conc_tr' (r : Regs) (j : Tx) : (conc r j).tr = conc r j := conc_tr r j

/-- Inputs that the packed interface lets through. -/
structure InOk (i : RIn) : Prop where
  ppn : i.ppn.toNat < 2 ^ 20
  acc : i.mAccId.toNat < 16
  resp : i.mRespId.toNat < 16
  kill : i.flush = true → i.refetch = true

theorem InOk.tr {i : RIn} (h : InOk i) : i.tr = i := by
  unfold RIn.tr
  rw [trunc20 h.ppn, trunc_of_lt (show i.mAccId.toNat < 2 ^ 4 from h.acc), trunc_of_lt (show i.mRespId.toNat < 2 ^ 4 from h.resp)]

theorem txn_trunc (v : W32) : txn (trunc 4 v) = txn v := by
  apply Fin.eq_of_val_eq
  simp only [txn, trunc, BitVec.toNat_setWidth]
  omega
theorem wayN_trunc (v : W32) : wayN (trunc kWay v) = wayN v := by
  rw [kWay_eq]
  apply Fin.eq_of_val_eq
  simp only [wayN, trunc, BitVec.toNat_setWidth]
  omega
theorem set20_trunc (v : W32) : ((trunc kTag v).setWidth 20 : Ppn) = v.setWidth 20 := by
  apply BitVec.eq_of_toNat_eq
  simp only [trunc, BitVec.toNat_setWidth, kTag]
  omega
theorem set6_trunc (v : W32) : ((trunc kIdx v).setWidth 6 : Idx) = v.setWidth 6 := by
  apply BitVec.eq_of_toNat_eq
  simp only [trunc, BitVec.toNat_setWidth, kIdx]
  omega

theorem line_trunc (v : W32) : trunc kLineAddr (v >>> 6) = v >>> 6 :=
  trunc_of_lt (by rw [BitVec.toNat_ushiftRight, Nat.shiftRight_eq_div_pow]; have := v.isLt; simp only [kLineAddr]; omega)

theorem Outs.tr {o : ROut} {a : Out} (h : Outs o a) : Outs o.tr a := by
  have hm : o.tr.memAddr = o.memAddr := by
    show trunc kLineAddr (o.memAddr >>> 6) <<< 6 = _
    rw [line_trunc, h.al]
  refine ⟨?_, by rw [hm]; exact h.al, h.miss⟩
  rw [← h.abs]
  unfold ROut.abs
  rw [hm]
  show Out.mk _ (if o.memV = true then some (o.memAddr, txn (trunc 4 o.memId)) else none) _ _
    (if o.mmuV = true then some ((trunc kTag o.mmuVtag).setWidth 20) else none)
    (if o.dataV = true then some ((trunc kIdx o.dataIdx).setWidth 6, wayN (trunc kWay o.dataWay)) else none) _ = _
  rw [txn_trunc, wayN_trunc, set20_trunc, set6_trunc]
  rfl

theorem tw_tr (t : RTw) : t.tr.abs = t.abs := by
  unfold RTw.abs
  show TabW.mk (if t.we = true then some ((trunc kIdx t.idx).setWidth 6, wayN (trunc kWay t.way), (trunc kTag t.tag).setWidth 20, t.data) else none) _ = _
  rw [wayN_trunc, set20_trunc, set6_trunc]
  rfl

/-- The module as it runs does what `core` does. -/
theorem packed_sim (allow : Bool) (r : Regs) (j : Tx) (i : RIn) (rl : RLook) (l : Look) (hx : r.st = .swapIn → r.tx.isSome = true)
    (hi : InOk i) (ht : TagsIs rl l) (hd : DataIs rl l) :
    ∃ (j' : Tx) (o : ROut) (tw : RTw), packedComb allow (conc r j) i rl = some (conc (core allow r i.abs l).1 j', o.tr, tw.tr) ∧
      Outs o.tr (core allow r i.abs l).2.1 ∧ tw.tr.abs = (core allow r i.abs l).2.2 ∧ (tw.tr.we = true → tw.tr.valid = true) := by
  have hd' : DataIs { metaV := (seenMeta (conc r j) i rl).respV, dataV := rl.dataV, dataWay := trunc kWay rl.dataWay, dataLine := rl.dataLine } l := by
    have hw : trunc kWay rl.dataWay = rl.dataWay := by rw [kWay_eq]; exact trunc_of_lt hd.way
    rw [hw]
    exact ⟨hd.data, hd.way⟩
  obtain ⟨j', o, tw, h1, h2, h3, h4⟩ := core_sim allow r j i (seenMeta (conc r j) i rl) _ l hx hi.ppn hd' (free_is _ _ _ _ ht)
    (fun a b c d e => hit_is _ _ _ _ ht hi.ppn (ctx_eq r j i hi.ppn hi.kill a b c d e))
  refine ⟨j', o, tw, ?_, h2.tr, ?_, h4⟩
  · rw [packed_eq, conc_tr', hi.tr, h1, Option.map_some, conc_tr']
  · rw [tw_tr]; exact h3

theorem way_tr (o : ROut) : o.tr.dataWay.toNat < 8 := by
  show (trunc kWay o.dataWay).toNat < 8
  rw [kWay_eq]
  simp only [trunc, BitVec.toNat_setWidth]
  omega
theorem twWay_tr (o : RTw) : o.tr.way.toNat < 8 := by
  show (trunc kWay o.way).toNat < 8
  rw [kWay_eq]
  simp only [trunc, BitVec.toNat_setWidth]
  omega
theorem idx_tr (o : ROut) : o.tr.dataIdx.toNat < 64 := by
  show (trunc kIdx o.dataIdx).toNat < 64
  simp only [trunc, BitVec.toNat_setWidth, kIdx]
  omega
theorem vtag_tr (o : ROut) : o.tr.mmuVtag.toNat < 2 ^ 20 := by
  show (trunc kTag o.mmuVtag).toNat < _
  simp only [trunc, BitVec.toNat_setWidth, kTag]
  omega

end Verif.ICacheBits

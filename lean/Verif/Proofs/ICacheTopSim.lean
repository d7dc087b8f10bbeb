import Verif.Proofs.ICachePackSim

/-
The packed instruction cache with its tables and its glue does what `call` and `peek` of Model/ICache do.
-/
namespace Verif.ICacheBits
open Verif.ICache
open Verif.TlbKernel (Bits Reader putBit putUint getBit getUint getMany trunc trunc_of_lt trunc_32 getUint_put bind_run pure_run
  bind_bit bind_uint putUint_length)
open Verif.Front (Resp instNop)

/-! ### The glue -/

def GIn.tr (g : GIn) : GIn := { g with st := trunc 3 g.st, axi := trunc 1 g.axi }

theorem putGIn_length (g : GIn) : (putGIn g).length = kGPi := by
  simp only [putGIn, List.length_append, putBit_length, putUint_length, putLine_length, kGPi]

theorem getGIn_put (g : GIn) (b : Bits) : getGIn (putGIn g ++ b) = some (g.tr, b) := by
  simp only [getGIn, putGIn, List.append_assoc, bind_bit, bind_uint, bind_line, pure_run, trunc_32]
  rfl

theorem putGOut_length {W : Nat} (g : GOut W) : (putGOut g).length = kGPo W := by
  simp only [putGOut, List.length_append, putBit_length, putUint_length, putWords_length, putBools_length, kGPo]

theorem getGOut_put {W : Nat} (g : GOut W) (b : Bits) : getGOut W (putGOut g ++ b) = some (g, b) := by
  simp only [getGOut, putGOut, List.append_assoc, bind_bit, bind_uint, bind_words, bind_bools, pure_run, trunc_32]

theorem runGlue_eq (W : Nat) (g : GIn) : runGlue W g = some (evalGlue W g.tr) := by
  unfold runGlue
  rw [poke_zero _ _ (by rw [putGIn_length, List.length_replicate]; exact Nat.le_refl _)]
  simp only [Option.bind_eq_bind, Option.bind_some]
  rw [peek_zero (getGIn_put g _)]
  simp only [Option.bind_some]
  rw [poke_zero _ _ (by rw [putGOut_length, List.length_replicate]; exact Nat.le_refl _)]
  simp only [Option.bind_some]
  rw [peek_zero (getGOut_put _ _)]

theorem glueIn_tr (r : Regs) (j : Tx) (o : ROut) (t : Tabs) (hold : Bool) :
    (glueIn ⟨conc r j, o, t⟩ hold).tr = glueIn ⟨conc r j, o, t⟩ hold := by
  have h1 : trunc 3 (stC r.st) = stC r.st := trunc_of_lt (by cases r.st <;> decide)
  have h2 : trunc 1 (if r.busy = true then 1#32 else 0#32) = if r.busy = true then 1#32 else 0#32 :=
    trunc_of_lt (by cases r.busy <;> decide)
  unfold GIn.tr glueIn
  show GIn.mk _ _ _ _ _ _ (trunc 3 (stC r.st)) (trunc 1 (if r.busy = true then 1#32 else 0#32)) _ _ _ _ _ = _
  rw [h1, h2]
  rfl

theorem stC_ne (s : State) : (stC s != 0#32) = decide (s ≠ .idle) := by cases s <;> rfl

/-- The readiness the glue shows. -/
theorem glue_ready (W : Nat) (r : Regs) (j : Tx) (o : ROut) (t t' : Tabs) (hold : Bool) :
    (evalGlue W (glueIn ⟨conc r j, o, t⟩ hold)).ready = peek ⟨r, t', o.ready⟩ hold := by
  have h : (evalGlue W (glueIn ⟨conc r j, o, t⟩ hold)).ready =
      (if hold then false else r.ready && !(false || r.reqV || r.tx.isSome || stC r.st != 0#32 || (if r.busy then 1#32 else 0#32 : W32) != 0#32) && o.ready) := by
    unfold evalGlue glueIn
    simp only [Bool.false_eq_true, if_false]
    split <;> rfl
  rw [h, stC_ne]
  unfold peek
  cases hold <;> cases r.busy <;> simp

/-- The group the glue shows. -/
theorem glue_resp (W : Nat) (r : Regs) (j : Tx) (o : ROut) (t : Tabs) (hold : Bool) :
    (evalGlue W (glueIn ⟨conc r j, o, t⟩ hold)).complete = o.respV ∧
    (o.respV = true → (⟨(evalGlue W (glueIn ⟨conc r j, o, t⟩ hold)).pc, (evalGlue W (glueIn ⟨conc r j, o, t⟩ hold)).group,
      (evalGlue W (glueIn ⟨conc r j, o, t⟩ hold)).pf, (evalGlue W (glueIn ⟨conc r j, o, t⟩ hold)).valid⟩ : Resp W) =
      glue W o.respPc (if o.fault then none else some o.rd)) := by
  unfold evalGlue glueIn
  simp only [Bool.false_eq_true, if_false]
  cases hv : o.respV with
  | false => exact ⟨rfl, fun h => by cases h⟩
  | true =>
    refine ⟨rfl, fun _ => ?_⟩
    simp only [if_true]
    unfold glue
    cases o.fault <;> rfl

/-! ### The inputs -/

/-- The inputs without the values that are not valid. -/
def RTop.abs (i : RTop) : TopIn where
  refetch := i.refetch
  fenceI := i.fenceI
  inval := i.inval
  req := if i.reqV then some i.pc else none
  mmu v := match i.mmu (v.setWidth 32 <<< 12) with
    | .ok pa => some (.page ((pa >>> 12).setWidth 20))
    | .fault => some .fault
    | .retry => none
  mReady := i.mReady
  mAcc := if i.mAcc then some (txn i.mAccId) else none
  mResp := if i.mRespV then some (txn i.mRespId, i.mResp) else none
  probe := if i.dcV then some (if i.dcMiss then none else some i.dcData) else none

theorem and15_lt (v : W32) : (v &&& 0xF#32).toNat < 16 := by
  rw [and15]
  have := (txn v).isLt
  simp only [BitVec.toNat_ofNat]
  omega

theorem modIn_abs (i : RTop) : (modIn i).abs = i.abs.core none := by
  unfold modIn RIn.abs TopIn.core TopIn.kill RTop.abs
  simp only [txn_and]
  rfl

theorem modIn_ok (i : RTop) : InOk (modIn i) :=
  ⟨by show (0#32).toNat < 2 ^ 20; decide, and15_lt _, and15_lt _, fun h => by
    show (i.refetch || i.inval || i.fenceI) = true
    rw [show i.fenceI = true from h, Bool.or_true]⟩

theorem shr12 (v : W32) : (v >>> 12).toNat < 2 ^ 20 := by
  rw [BitVec.toNat_ushiftRight, Nat.shiftRight_eq_div_pow]
  have := v.isLt
  omega

theorem applyMmu_ok (i : RTop) (b : Bool) (v : W32) : InOk (applyMmu i (modIn i) b v) := by
  have h := modIn_ok i
  unfold applyMmu
  cases b with
  | false => exact ⟨by show (0#32).toNat < 2 ^ 20; decide, h.acc, h.resp, h.kill⟩
  | true =>
    rw [if_pos rfl]
    cases i.mmu v with
    | ok pa => exact ⟨shr12 pa, h.acc, h.resp, h.kill⟩
    | fault => exact ⟨by show (0#32).toNat < 2 ^ 20; decide, h.acc, h.resp, h.kill⟩
    | retry => exact ⟨by show (0#32).toNat < 2 ^ 20; decide, h.acc, h.resp, h.kill⟩

/-- The page the MMU is asked for. -/
theorem applyMmu_abs (i : RTop) (o : ROut) (hv : o.mmuVtag.toNat < 2 ^ 20) :
    (applyMmu i (modIn i) (!i.refetch && o.mmuV) (o.mmuVtag <<< 12)).abs =
      i.abs.core (if i.refetch then none else o.abs.ask.bind i.abs.mmu) := by
  have hx : ∀ x : Option Xlat, i.abs.core x = { i.abs.core none with xl := x } := fun _ => rfl
  rw [hx, ← modIn_abs]
  unfold applyMmu
  cases hr : i.refetch with
  | true => rfl
  | false =>
    unfold ROut.abs
    cases hm : o.mmuV with
    | false => rfl
    | true =>
      simp only [Bool.not_false, Bool.true_and, if_true, Bool.false_eq_true, if_false, Option.bind_some]
      have : i.abs.mmu (o.mmuVtag.setWidth 20) = match i.mmu (o.mmuVtag <<< 12) with
          | .ok pa => some (.page ((pa >>> 12).setWidth 20))
          | .fault => some .fault
          | .retry => none := by
        show (match i.mmu (((o.mmuVtag.setWidth 20 : Ppn).setWidth 32) <<< 12) with
          | .ok pa => some (Xlat.page ((pa >>> 12).setWidth 20))
          | .fault => some .fault
          | .retry => none) = _
        rw [low20 _ hv]
      rw [this]
      cases i.mmu (o.mmuVtag <<< 12) <;> rfl

/-! ### The tables -/

theorem rowI_idxR (pc : W32) : rowI (idxR pc) = idxOf pc := idxR_low pc

theorem readEn_eq (r : Regs) (j : Tx) (o : ROut) (t : Tabs) (i : RTop) :
    readEn ⟨conc r j, o, t⟩ i = (!i.abs.refetch && (i.abs.req.isSome || r.reqV)) := by
  show (!i.refetch && (i.reqV || r.reqV || false)) = (!i.refetch && ((if i.reqV then some i.pc else none).isSome || r.reqV))
  cases i.reqV <;> simp

theorem row_eq (r : Regs) (j : Tx) (o : ROut) (t : Tabs) (b : Bool) (i : RTop) (h : readEn ⟨conc r j, o, t⟩ i = true) :
    rowI (rowOf ⟨conc r j, o, t⟩ i) = readIdx ⟨r, t, b⟩ i.abs := by
  rw [readEn_eq, Bool.and_eq_true, Bool.or_eq_true] at h
  show rowI (idxR (if r.reqV then r.reqPc else if false then 0#32 else i.pc)) = if r.reqV then idxOf r.reqPc else idxOf (i.abs.req.getD 0#32)
  rw [rowI_idxR]
  cases hq : r.reqV with
  | true => rfl
  | false =>
    rw [hq] at h
    rcases h.2 with h2 | h2
    · have : i.abs.req = some i.pc := by
        unfold RTop.abs at h2 ⊢
        cases hv : i.reqV with
        | true => rfl
        | false => simp [hv] at h2
      rw [this]; rfl
    · cases h2

theorem tags_fill (r : Regs) (j : Tx) (o : ROut) (t : Tabs) (b : Bool) (i : RTop) :
    TagsIs (fillMeta ⟨conc r j, o, t⟩ i) (metaIn ⟨r, t, b⟩ i.abs) := by
  have hs : ∀ p : Ppn, (p.setWidth 32 : W32).setWidth 20 = p := fun p => by simp
  have e := readEn_eq r j o t i
  unfold fillMeta metaIn
  dsimp only
  cases h : readEn ⟨conc r j, o, t⟩ i with
  | false =>
    rw [← e, h]
    exact ⟨rfl, fun w => by show (0#32).toNat < 2 ^ 20; decide⟩
  | true =>
    rw [← e, h, row_eq r j o t b i h]
    refine ⟨?_, fun w => ?_⟩
    · show some _ = some _
      congr 1
      funext w
      show _ = if t.valid _ w = true then some (((t.tag _ w).setWidth 32 : W32).setWidth 20) else none
      rw [hs]
    · show ((t.tag _ w).setWidth 32).toNat < 2 ^ 20
      rw [BitVec.toNat_setWidth]
      have := (t.tag (readIdx ⟨r, t, b⟩ i.abs) w).isLt
      omega

theorem no_data (c : IC) (i : TopIn) : (metaIn c i).data = none := by
  unfold metaIn; split <;> rfl

theorem data_empty (r : Regs) (j : Tx) (o : ROut) (t : Tabs) (b : Bool) (i : RTop) :
    DataIs (fillMeta ⟨conc r j, o, t⟩ i) (metaIn ⟨r, t, b⟩ i.abs) := by
  refine ⟨?_, ?_⟩
  · rw [no_data]
    unfold fillMeta
    split <;> rfl
  · unfold fillMeta
    split <;> (show (0#32).toNat < 8; decide)

theorem row_lt (x : W32) : (idxR x).toNat < 64 := by
  rw [idxR_eq, BitVec.toNat_setWidth]
  have := (idxOf x).isLt
  omega

theorem row_beq {u v : W32} (hu : u.toNat < 64) (hv : v.toNat < 64) : (u == v) = decide (rowI v = rowI u) := by
  apply Bool.eq_iff_iff.mpr
  simp only [beq_iff_eq, decide_eq_true_eq]
  constructor
  · rintro rfl; rfl
  · intro h
    apply BitVec.eq_of_toNat_eq
    have := congrArg BitVec.toNat h
    simp only [rowI, BitVec.toNat_setWidth] at this
    omega

theorem tags_data (r : Regs) (j : Tx) (o : ROut) (t : Tabs) (b : Bool) (i : RTop) (p : ROut) (q : Option (Idx × Way)) :
    TagsIs (fillData ⟨conc r j, o, t⟩ i (fillMeta ⟨conc r j, o, t⟩ i) p) (dataIn ⟨r, t, b⟩ i.abs q) := by
  have h := tags_fill r j o t b i
  have h1 : (dataIn ⟨r, t, b⟩ i.abs q).tags = (metaIn ⟨r, t, b⟩ i.abs).tags := by
    unfold dataIn
    dsimp only
    split
    · split <;> rfl
    · rfl
  have h2 : ∀ (c : RIC) (l : RLook), (fillData c i l p).metaV = l.metaV ∧ (fillData c i l p).tag = l.tag ∧ (fillData c i l p).val = l.val := by
    intro c l
    unfold fillData
    split
    · split <;> exact ⟨rfl, rfl, rfl⟩
    · exact ⟨rfl, rfl, rfl⟩
  obtain ⟨e1, e2, e3⟩ := h2 ⟨conc r j, o, t⟩ (fillMeta ⟨conc r j, o, t⟩ i)
  refine ⟨?_, fun w => ?_⟩
  · rw [h1, h.tags, e1, e2, e3]
  · rw [e2]; exact h.small w

theorem data_fill (r : Regs) (j : Tx) (o : ROut) (t : Tabs) (b : Bool) (i : RTop) (p : ROut) (hw : p.dataWay.toNat < 8)
    (hx : p.dataIdx.toNat < 64) :
    DataIs (fillData ⟨conc r j, o, t⟩ i (fillMeta ⟨conc r j, o, t⟩ i) p) (dataIn ⟨r, t, b⟩ i.abs p.abs.dataReq) := by
  have hz : (0#32).toNat < 8 := by decide
  have hm := (tags_fill r j o t b i).tags
  have hn := no_data ⟨r, t, b⟩ i.abs
  have hv : (fillMeta ⟨conc r j, o, t⟩ i).metaV = readEn ⟨conc r j, o, t⟩ i := by
    unfold fillMeta
    cases h : readEn ⟨conc r j, o, t⟩ i <;> rfl
  rw [hv] at hm
  unfold fillData dataIn
  rw [dif_pos hw]
  dsimp only
  cases he : readEn ⟨conc r j, o, t⟩ i with
  | false =>
    rw [he] at hm
    simp only [Bool.and_false, Bool.false_and, Bool.false_eq_true, if_false] at hm ⊢
    rw [hm]
    exact ⟨hn, hz⟩
  | true =>
    rw [he] at hm
    simp only [if_true] at hm
    rw [hm]
    have hq : p.abs.dataReq = if p.dataV then some (rowI p.dataIdx, wayN p.dataWay) else none := rfl
    rw [hq]
    cases hd : p.dataV with
    | false =>
      simp only [Bool.false_and, Bool.false_eq_true, if_false]
      exact ⟨hn, hz⟩
    | true =>
      rw [show (rowOf ⟨conc r j, o, t⟩ i == p.dataIdx) = decide (rowI p.dataIdx = readIdx ⟨r, t, b⟩ i.abs) by
        rw [row_beq (show (rowOf ⟨conc r j, o, t⟩ i).toNat < 64 from row_lt _) hx, row_eq r j o t b i he]]
      simp only [Bool.true_and, if_true]
      by_cases hc : rowI p.dataIdx = readIdx ⟨r, t, b⟩ i.abs
      · simp only [hc, decide_true, if_true]
        refine ⟨?_, hw⟩
        show some (wayN p.dataWay, t.data (readIdx ⟨r, t, b⟩ i.abs) (wayN p.dataWay)) = some (wayN p.dataWay, t.data (rowI (rowOf ⟨conc r j, o, t⟩ i)) ⟨p.dataWay.toNat, hw⟩)
        rw [row_eq r j o t b i he, show wayN p.dataWay = ⟨p.dataWay.toNat, hw⟩ from Fin.eq_of_val_eq (Nat.mod_eq_of_lt hw)]
      · simp only [hc, decide_false, Bool.false_eq_true, if_false]
        exact ⟨hn, hz⟩

/-- No line is written while the table is emptied. -/
theorem no_both (allow : Bool) (r : Regs) (i : In) (l : Look) : (core allow r i l).2.2.inval = true →
    (core allow r i l).2.2.we = none := by
  have hf : ∀ w o line way, (finish r i w o line way).tw.inval = true → (finish r i w o line way).tw.we = none := by
    intro w o line way h
    have : i.flush = true := h
    show (if i.flush = true then none else _) = none
    rw [this]; rfl
  have hg : ∀ w o d, (gotLine r i l w o d).tw.inval = true → (gotLine r i l w o d).tw.we = none := by
    intro w o d
    unfold gotLine
    dsimp only
    split
    · exact hf _ _ _ _
    · exact fun _ => rfl
  show (evalSm allow r i l).tw.inval = true → (evalSm allow r i l).tw.we = none
  unfold evalSm
  dsimp only
  cases r.st <;> dsimp only
  · unfold idleStep regPath
    repeat' split
    all_goals exact fun _ => rfl
  · unfold swapStep
    dsimp only
    generalize (if (!r.busy && i.mReady && r.tx.isSome) = true then _ else probeStep r i (drop r i) : Regs) = w
    repeat' split
    all_goals first | exact fun _ => rfl | exact hg _ _ _
  · unfold waitStep
    dsimp only
    split
    · exact fun _ => rfl
    · split
      · exact hf _ _ _ _
      · exact fun _ => rfl
  · unfold cancelStep
    exact fun _ => rfl

theorem write_eq (t : Tabs) (tw : RTw) (hw : tw.way.toNat < 8) (hv : tw.we = true → tw.valid = true)
    (hn : tw.abs.inval = true → tw.abs.we = none) : writeTabs t tw = some (t.write tw.abs) := by
  unfold writeTabs
  cases h : tw.we with
  | false =>
    have : tw.abs.we = none := by unfold RTw.abs; rw [h]; rfl
    unfold Tabs.write
    rw [this]
    simp only [Bool.false_eq_true, if_false]
    rfl
  | true =>
    have h1 : tw.abs.we = some (rowI tw.idx, ⟨tw.way.toNat, hw⟩, tw.tag.setWidth 20, tw.data) := by
      unfold RTw.abs
      rw [h, show wayN tw.way = ⟨tw.way.toNat, hw⟩ from Fin.eq_of_val_eq (Nat.mod_eq_of_lt hw)]
      rfl
    have h2 : tw.inval = false := by
      cases hi : tw.inval with
      | false => rfl
      | true => rw [hn hi] at h1; cases h1
    unfold Tabs.write
    rw [h1, show tw.abs.inval = tw.inval from rfl, h2]
    simp only [Bool.false_eq_true, if_false, if_true]
    rw [dif_pos hw, hv h]

/-! ### A miss has a number -/

theorem core_swap (allow : Bool) (r : Regs) (i : In) (l : Look) (h : r.st = .swapIn → r.tx.isSome = true) :
    (core allow r i l).1.st = .swapIn → (core allow r i l).1.tx.isSome = true := by
  have hl : ∀ s : Sm, (lookup r i s).1.st = s.r.st ∧ (lookup r i s).1.tx = s.r.tx := by
    intro s
    unfold lookup
    dsimp only
    repeat' split
    all_goals exact ⟨rfl, rfl⟩
  have hp : ∀ (w : Regs), (probeStep r i w).st = w.st ∧ (probeStep r i w).tx = w.tx := by
    intro w
    unfold probeStep
    dsimp only
    repeat' split
    all_goals exact ⟨rfl, rfl⟩
  have hd : (drop r i).st = r.st ∧ (drop r i).tx = r.tx := by rw [drop_is]; exact ⟨rfl, rfl⟩
  have hf : ∀ w o line way, (finish r i w o line way).r.st = .idle := fun w o line way => rfl
  have hg : ∀ w o d, (gotLine r i l w o d).r.st ≠ .swapIn := by
    intro w o d
    unfold gotLine
    dsimp only
    split
    · rw [hf]; intro h; cases h
    · intro h; cases h
  show (lookup r i (evalSm allow r i l)).1.st = .swapIn → (lookup r i (evalSm allow r i l)).1.tx.isSome = true
  rw [(hl _).1, (hl _).2]
  unfold evalSm
  dsimp only
  cases hs : r.st with
  | idle =>
    intro h2
    dsimp only at h2 ⊢
    unfold idleStep regPath at h2 ⊢
    repeat' split at h2
    all_goals first
      | (exfalso; dsimp only at h2; rw [hd.1, hs] at h2; cases h2)
      | skip
    all_goals simp_all
  | swapIn =>
    intro h2
    have ht := h hs
    dsimp only at h2 ⊢
    unfold swapStep at h2 ⊢
    dsimp only at h2 ⊢
    repeat' split at h2
    all_goals first
      | (exfalso; cases h2; done)
      | (exfalso; exact hg _ _ _ h2)
      | skip
    all_goals simp_all
  | waitDc =>
    intro h2
    exfalso
    dsimp only at h2
    unfold waitStep at h2
    dsimp only at h2
    split at h2
    · cases h2
    · split at h2
      · rw [hf] at h2; cases h2
      · change (probeStep r i (drop r i)).st = _ at h2
        rw [(hp _).1, hd.1, hs] at h2; cases h2
  | cancelWait =>
    intro h2
    cases h2

/-! ### A call -/

/-- The packed cache in a state of the model's. -/
structure Rel (c : RIC) (a : IC) : Prop where
  r : ∃ j, c.r = conc a.r j
  t : c.t = a.t
  rdy : c.o.ready = a.outRdy
  sw : a.r.st = .swapIn → a.r.tx.isSome = true

theorem rel_init : Rel {} {} := ⟨⟨0, rfl⟩, rfl, rfl, fun h => by cases h⟩

theorem peek_sim (W : Nat) {c : RIC} {a : IC} (h : Rel c a) (hold : Bool) : peekR W c hold = some (peek a hold) := by
  obtain ⟨r, o, t⟩ := c
  obtain ⟨r', t', b⟩ := a
  obtain ⟨⟨j, h1⟩, h2, h3, _⟩ := h
  dsimp only at h1 h2 h3
  subst h1 h2 h3
  unfold peekR
  rw [runGlue_eq, Option.map_some, glueIn_tr, glue_ready W r' j o t t]

theorem rcall_sim (W : Nat) {c : RIC} {a : IC} (h : Rel c a) (i : RTop) :
    ∃ c' g, rcall W c i = some (c', g) ∧ Rel c' (call a i.abs).1 ∧ c'.o.abs = (call a i.abs).2 ∧
      g.resp = (call a i.abs).2.resp.map fun x => glue W x.1 x.2 := by
  obtain ⟨r, o, t⟩ := c
  obtain ⟨r', t', b⟩ := a
  obtain ⟨⟨j, h1⟩, h2, h3, hx⟩ := h
  dsimp only at h1 h2 h3 hx
  subst h1 h2 h3
  obtain ⟨j1, o1, w1, e1, p1, _, _⟩ := packed_sim false r' j (modIn i) _ _ hx (modIn_ok i) (tags_fill r' j o t o.ready i) (data_empty r' j o t o.ready i)
  have ha := applyMmu_abs i o1.tr (vtag_tr o1)
  rw [modIn_abs] at p1
  rw [p1.abs] at ha
  obtain ⟨j2, o2, w2, e2, p2, _, _⟩ := packed_sim false r' j (applyMmu i (modIn i) (!i.refetch && o1.tr.mmuV) (o1.tr.mmuVtag <<< 12)) _ _ hx
    (applyMmu_ok i _ _) (tags_fill r' j o t o.ready i) (data_empty r' j o t o.ready i)
  obtain ⟨j3, o3, w3, e3, p3, q3, v3⟩ := packed_sim true r' j (applyMmu i (modIn i) (!i.refetch && o1.tr.mmuV) (o1.tr.mmuVtag <<< 12)) _ _ hx
    (applyMmu_ok i _ _) (tags_data r' j o t o.ready i o2.tr o2.tr.abs.dataReq) (data_fill r' j o t o.ready i o2.tr (way_tr o2) (idx_tr o2))
  rw [ha] at p2
  rw [p2.abs, ha] at e3 p3 q3
  have hc : call ⟨r', t, o.ready⟩ i.abs = (let x := core true r' (i.abs.core (if i.refetch then none else
      (core false r' (i.abs.core none) (metaIn ⟨r', t, o.ready⟩ i.abs)).2.1.ask.bind i.abs.mmu)) (dataIn ⟨r', t, o.ready⟩ i.abs
        (core false r' (i.abs.core (if i.refetch then none else
      (core false r' (i.abs.core none) (metaIn ⟨r', t, o.ready⟩ i.abs)).2.1.ask.bind i.abs.mmu)) (metaIn ⟨r', t, o.ready⟩ i.abs)).2.1.dataReq)
      ({ r := x.1, t := t.write x.2.2, outRdy := x.2.1.ready }, x.2.1)) := rfl
  rw [hc]
  dsimp only
  have hw := write_eq t w3.tr (twWay_tr w3) v3 (by rw [q3]; exact no_both _ _ _ _)
  refine ⟨⟨conc _ j3, o3.tr, t.write w3.tr.abs⟩, evalGlue W (glueIn ⟨conc r' j, o3.tr, t⟩ (i.itlbFlush || i.fenceI || i.inval)), ?_, ⟨⟨j3, rfl⟩, ?_, ?_, core_swap _ _ _ _ hx⟩, p3.abs, ?_⟩
  · unfold rcall
    dsimp only
    rw [e1]
    simp only [Option.bind_eq_bind, Option.bind_some]
    rw [e2]
    simp only [Option.bind_some]
    rw [e3]
    simp only [Option.bind_some]
    rw [runGlue_eq, glueIn_tr]
    simp only [Option.bind_some, p3.miss, Bool.and_false, Bool.false_eq_true, if_false]
    rw [hw]
    rfl
  · dsimp only
    rw [q3]
  · rw [← p3.abs]; rfl
  · have hg := glue_resp W r' j o3.tr t (i.itlbFlush || i.fenceI || i.inval)
    rw [← p3.abs]
    unfold GOut.resp
    rw [hg.1]
    cases hv : o3.tr.respV with
    | false => simp [ROut.abs, hv]
    | true =>
      rw [if_pos rfl, hg.2 hv]
      simp [ROut.abs, hv]

end Verif.ICacheBits

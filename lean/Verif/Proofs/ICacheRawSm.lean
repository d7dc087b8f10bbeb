import Verif.Proofs.ICacheRaw

/-
The state machine on the code's records against `evalSm` of Model/ICache, state by state.
-/
namespace Verif.ICacheBits
open Verif.ICache

/-- What the state machine leaves is what the model's leaves. -/
structure Agree (w : Wk) (s : Sm) : Prop where
  rw : ∃ j, w.rw = { conc s.r j with ready := s.rdy }
  o : ({ w.o with ready := false } : ROut).abs = s.o
  al : (w.o.memAddr >>> 6) <<< 6 = w.o.memAddr
  tw : w.tw.abs = s.tw
  val : w.tw.we = true → w.tw.valid = true
  rdy : w.rdy = s.rdy
  fast : w.fast = s.fast
  miss : w.o.miss = false ∧ w.o.mmuV = false

/-- The packed tag compare against the model's ways. -/
structure HitIs (m : RMeta) (h : Option Way) : Prop where
  hit : (capMeta m true).hit = h.isSome
  way : ∀ w, h = some w → (capMeta m true).way = BitVec.ofNat 32 w.val

/-- The packed free way against the model's. -/
structure FreeIs (m : RMeta) (h : Option Way) : Prop where
  inv : (capMeta m false).inv = h.isSome
  first : ∀ w, h = some w → (capMeta m false).first = BitVec.ofNat 32 w.val

/-- The data of the look-up against the model's. -/
structure DataIs (rl : RLook) (l : Look) : Prop where
  data : l.data = if rl.dataV then some (wayN rl.dataWay, rl.dataLine) else none
  way : rl.dataWay.toNat < 8

theorem align (p x : W32) : ((((p <<< 12) ||| (x <<< 6)) >>> 6) <<< 6 : W32) = (p <<< 12) ||| (x <<< 6) := by
  apply BitVec.eq_of_getLsbD_eq
  intro k hk
  simp only [BitVec.getLsbD_shiftLeft, BitVec.getLsbD_ushiftRight, BitVec.getLsbD_or, hk, decide_true, Bool.true_and]
  by_cases h : k < 6
  · simp [h]; omega
  · have : 6 + (k - 6) = k := by omega
    simp [h, this, hk]

theorem way_beq (v : W32) (w : Way) (h : v.toNat < 8) : (v == BitVec.ofNat 32 w.val) = decide (wayN v = w) := by
  apply Bool.eq_iff_iff.mpr
  simp only [beq_iff_eq, decide_eq_true_eq]
  constructor
  · rintro rfl
    exact wayN_ofNat w
  · rintro rfl
    apply BitVec.eq_of_toNat_eq
    simp only [wayN, BitVec.toNat_ofNat]
    omega

theorem capData_eq {rl : RLook} {l : Look} (hd : DataIs rl l) {m : RMeta} {w : Way} (hm : HitIs m (some w)) (allow : Bool) :
    capData allow rl (capMeta m true) = (hitData allow l w).isSome := by
  unfold capData hitData
  rw [hm.hit, hm.way w rfl, hd.data, way_beq _ _ hd.way]
  cases rl.dataV <;> simp
  split <;> simp_all

theorem hitData_line {rl : RLook} {l : Look} (hd : DataIs rl l) {w : Way} {allow : Bool} {d : Line} (h : hitData allow l w = some d) :
    d = rl.dataLine := by
  unfold hitData at h
  rw [hd.data] at h
  cases hv : rl.dataV with
  | false => simp [hv] at h
  | true =>
    simp only [hv, if_true] at h
    split at h
    · exact (Option.some.inj h).symm
    · cases h

theorem low20 (v : W32) (h : v.toNat < 2 ^ 20) : ((v.setWidth 20 : Ppn).setWidth 32 : W32) = v := by
  apply BitVec.eq_of_toNat_eq
  simp only [BitVec.toNat_setWidth]
  omega

theorem xl_page {i : RIn} (hv : i.ppnV = true) (hf : i.fault = false) : i.abs.xl = some (.page (i.ppn.setWidth 20)) := by
  simp [RIn.abs, hv, hf]
theorem xl_fault {i : RIn} (hv : i.ppnV = true) (hf : i.fault = true) : i.abs.xl = some .fault := by
  simp [RIn.abs, hv, hf]
theorem xl_none {i : RIn} (hv : i.ppnV = false) : i.abs.xl = none := by
  simp [RIn.abs, hv]
theorem req_some {i : RIn} (hv : i.reqV = true) : i.abs.req = some i.pc := by
  simp [RIn.abs, hv]
theorem req_none {i : RIn} (hv : i.reqV = false) : i.abs.req = none := by
  simp [RIn.abs, hv]

section
variable (allow : Bool) (r : Regs) (j : Tx) (i : RIn) (m : RMeta) (rl : RLook) (l : Look) (f g : Tx → Bool) (b : Bool)

/-- The registers written so far. -/
abbrev wr0 : Regs := { r with infl := f, canc := g }

theorem reg_none (hst : r.st = .idle) (hq : r.reqV = true) (hv : i.ppnV = false) :
    Agree ((regR allow (conc r j) i m rl (base r j i f g b)).latch (conc r j) i)
      { r := wr0 r f g, o := { mRespReady := b }, tw := { inval := i.abs.flush }, rdy := false } := by
  have h1 : (conc r j).reqV = true := hq
  have h2 : (conc r j).st = 0#32 := by show stC r.st = _; rw [hst]; rfl
  unfold regR
  simp only [h1, hv, Bool.and_false, Bool.false_eq_true, if_false, Bool.not_false, Bool.and_self, if_true]
  unfold Wk.latch
  simp only [hv, Bool.false_and, Bool.false_eq_true, if_false, h2, show (0#32 == 1#32) = false from rfl]
  exact ⟨⟨j, by simp only [base, Wk.start, conc, hst, stC]⟩, rfl, align _ _, rfl, (fun h => by cases h), rfl, rfl, rfl, rfl⟩

theorem reg_fault (hst : r.st = .idle) (hq : r.reqV = true) (hv : i.ppnV = true) (hf : i.fault = true) :
    Agree ((regR allow (conc r j) i m rl (base r j i f g b)).latch (conc r j) i)
      { r := wr0 r f g, o := { mRespReady := b, resp := some (r.reqPc, none) }, tw := { inval := i.abs.flush }, rdy := true } := by
  have h1 : (conc r j).reqV = true := hq
  have h2 : (conc r j).st = 0#32 := by show stC r.st = _; rw [hst]; rfl
  unfold regR
  simp only [h1, hv, hf, Bool.and_self, if_true]
  unfold Wk.latch
  simp only [base, Wk.start, hv, Bool.and_false, Bool.false_eq_true, if_false, h2, show (0#32 == 1#32) = false from rfl, Bool.false_and]
  exact ⟨⟨j, by simp only [conc, hst, stC]⟩, rfl, align _ _, rfl, (fun h => by cases h), rfl, rfl, rfl, rfl⟩

theorem reg_page (hst : r.st = .idle) (hq : r.reqV = true) (hv : i.ppnV = true) (hf : i.fault = false) (hp : i.ppn.toNat < 2 ^ 20)
    (hd : DataIs rl l) (hm : HitIs m (hitWay l (i.ppn.setWidth 20))) :
    Agree ((regR allow (conc r j) i m rl (base r j i f g b)).latch (conc r j) i)
      (regPath allow r i.abs l (wr0 r f g) { mRespReady := b } (i.ppn.setWidth 20)) := by
  have h1 : (conc r j).reqV = true := hq
  have h2 : (conc r j).st = 0#32 := by show stC r.st = _; rw [hst]; rfl
  have h3 : (conc r j).txV = r.tx.isSome := rfl
  have h4 : (conc r j).tx = BitVec.ofNat 32 (r.tx.getD j).val := rfl
  have h5 := low20 _ hp
  unfold regR regPath
  simp only [h1, hv, hf, Bool.and_self, if_true, Bool.false_eq_true, if_false]
  cases hh : hitWay l (i.ppn.setWidth 20) with
  | none =>
    rw [hh] at hm
    rw [show (capMeta m true).hit = false from hm.hit]
    simp only [Bool.false_and, Bool.false_eq_true, if_false]
    have ht : (if (conc r j).txV then some (conc r j).tx else allocR (conc r j)) = (r.tx.or (freeTx r)).map fun t => BitVec.ofNat 32 t.val := by
      rw [h3, h4]
      cases r.tx with
      | none => rfl
      | some t => rfl
    rw [ht]
    cases hx : r.tx.or (freeTx r) with
    | none =>
      have hn : r.tx = none := by
        cases h : r.tx with
        | none => rfl
        | some t => rw [h] at hx; simp at hx
      simp only [Option.map_none]
      unfold Wk.latch
      simp only [hv, Bool.and_self, if_true, h2, show (0#32 == 1#32) = false from rfl, Bool.false_and, Bool.false_eq_true, if_false]
      exact ⟨⟨j, by simp only [base, Wk.start, conc, hst, stC, hn, h5]⟩, rfl, align _ _, rfl, (fun h => by cases h), rfl, rfl, rfl, rfl⟩
    | some t =>
      simp only [Option.map_some]
      unfold Wk.latch
      simp only [hv, Bool.and_self, if_true, h2, show (0#32 == 1#32) = false from rfl, Bool.false_and, Bool.false_eq_true, if_false]
      exact ⟨⟨j, by simp only [base, Wk.start, conc, hst, stC, h5, Wk.noProbe, Regs.noProbe, ofNat_and, Option.getD_some, Option.isSome_some]; rfl⟩, rfl, align _ _, rfl, (fun h => by cases h), rfl, rfl, rfl, rfl⟩
  | some w =>
    rw [hh] at hm
    have hc := capData_eq hd hm allow
    rw [hc, show (capMeta m true).hit = true from hm.hit, hm.way w rfl]
    cases hx : hitData allow l w with
    | none =>
      simp only [hx, Option.isSome_none, Bool.and_false, Bool.false_eq_true, if_false, if_true]
      unfold Wk.latch
      simp only [hv, Bool.and_self, if_true, h2, show (0#32 == 1#32) = false from rfl, Bool.false_and, Bool.false_eq_true, if_false]
      refine ⟨⟨j, by simp only [base, Wk.start, conc, hst, stC, h5]⟩, ?_, align _ _, rfl, (fun h => by cases h), rfl, rfl, rfl, rfl⟩
      simp only [ROut.abs, base, Wk.start, wayN_ofNat, show (conc r j).reqIdx = idxR r.reqPc from rfl, idxR_low, if_true,
        Bool.false_eq_true, if_false]
    | some d =>
      simp only [hx, Option.isSome_some, Bool.and_self, if_true]
      unfold Wk.latch
      simp only [hv, Bool.and_self, if_true, h2, show (0#32 == 1#32) = false from rfl, Bool.false_and, Bool.false_eq_true, if_false]
      have hd' := hitData_line hd hx
      exact ⟨⟨j, by simp only [base, Wk.start, conc, hst, stC, h5]⟩, by subst hd'; rfl, align _ _, rfl, (fun h => by cases h), rfl, rfl, rfl, rfl⟩

/-- `regR` without a registered request does nothing. -/
theorem reg_empty (x : W32) (hst : r.st = .idle) (hq : r.reqV = false) :
    Agree ((regR allow (conc r j) i m rl { base r j i f g b with o := { (base r j i f g b).o with respPc := x } }).latch (conc r j) i)
      { r := wr0 r f g, o := { mRespReady := b }, tw := { inval := i.abs.flush }, rdy := true } := by
  have h1 : (conc r j).reqV = false := hq
  have h2 : (conc r j).st = 0#32 := by show stC r.st = _; rw [hst]; rfl
  unfold regR
  simp only [h1, Bool.false_and, Bool.false_eq_true, if_false]
  unfold Wk.latch
  simp only [Bool.and_false, Bool.false_and, Bool.false_eq_true, if_false, h2, show (0#32 == 1#32) = false from rfl]
  exact ⟨⟨j, by simp only [base, Wk.start, conc, hst, stC]⟩, rfl, align _ _, rfl, (fun h => by cases h), rfl, rfl, rfl, rfl⟩

theorem idle_sim (hst : r.st = .idle) (hp : i.ppn.toNat < 2 ^ 20) (hd : DataIs rl l)
    (hm : i.refetch = false → i.ppnV = true → i.fault = false → (r.reqV = true ∨ i.reqV = true) → HitIs m (hitWay l (i.ppn.setWidth 20))) :
    Agree ((idleR allow (conc r j) i m rl (base r j i f g b)).latch (conc r j) i)
      (idleStep allow r i.abs l (wr0 r f g) { mRespReady := b }) := by
  have h2 : (conc r j).st = 0#32 := by show stC r.st = _; rw [hst]; rfl
  have h6 : (conc r j).reqV = r.reqV := rfl
  unfold idleR idleStep
  rw [show i.abs.kill = i.refetch from rfl]
  cases hr : i.refetch with
  | true =>
    simp only [if_true]
    unfold Wk.latch
    simp only [base, Wk.start, Bool.and_false, Bool.false_eq_true, if_false, h2, show (0#32 == 1#32) = false from rfl, Bool.false_and]
    exact ⟨⟨j, by simp only [conc, hst, stC]⟩, rfl, align _ _, rfl, (fun h => by cases h), rfl, rfl, rfl, rfl⟩
  | false =>
    rw [h6]
    simp only [Bool.false_eq_true, if_false]
    cases hq : r.reqV with
    | true =>
      simp only [Bool.not_true, Bool.false_and, Bool.false_eq_true, if_false, if_true]
      cases hv : i.ppnV with
      | false =>
        rw [xl_none hv]
        exact reg_none allow r j i m rl f g b hst hq hv
      | true =>
        cases hf : i.fault with
        | true =>
          rw [xl_fault hv hf]
          exact reg_fault allow r j i m rl f g b hst hq hv hf
        | false =>
          rw [xl_page hv hf]
          exact reg_page allow r j i m rl l f g b hst hq hv hf hp hd (hm hr hv hf (.inl hq))
    | false =>
      simp only [Bool.not_false, Bool.true_and, Bool.false_eq_true, if_false]
      cases hi : i.reqV with
      | false =>
        rw [req_none hi]
        simp only [Bool.false_and, Bool.false_eq_true, if_false]
        exact reg_empty allow r j i m rl f g b (base r j i f g b).o.respPc hst hq
      | true =>
        rw [req_some hi]
        cases hv : i.ppnV with
        | false =>
          rw [xl_none hv]
          simp only [Bool.and_false, Bool.false_eq_true, if_false]
          exact reg_empty allow r j i m rl f g b (base r j i f g b).o.respPc hst hq
        | true =>
          simp only [Bool.and_self, if_true]
          cases hf : i.fault with
          | true =>
            rw [xl_fault hv hf]
            simp only [if_true]
            unfold Wk.latch
            simp only [base, Wk.start, Bool.and_false, Bool.false_eq_true, if_false, h2, show (0#32 == 1#32) = false from rfl, Bool.false_and]
            exact ⟨⟨j, by simp only [conc, hst, stC]⟩, rfl, align _ _, rfl, (fun h => by cases h), rfl, rfl, rfl, rfl⟩
          | false =>
            rw [xl_page hv hf]
            simp only [Bool.false_eq_true, if_false]
            have hm := hm hr hv hf (.inr hi)
            cases hh : hitWay l (i.ppn.setWidth 20) with
            | none =>
              rw [hh] at hm
              rw [show (capMeta m true).hit = false from hm.hit]
              simp only [Bool.false_and, Bool.false_eq_true, if_false]
              exact reg_empty allow r j i m rl f g b i.pc hst hq
            | some w =>
              rw [hh] at hm
              have hc := capData_eq hd hm allow
              rw [hc, show (capMeta m true).hit = true from hm.hit, hm.way w rfl]
              cases hx : hitData allow l w with
              | none =>
                simp only [hx, Option.isSome_none, Bool.and_false, Bool.false_eq_true, if_false, if_true]
                unfold Wk.latch
                simp only [base, Wk.start, Bool.and_false, Bool.false_eq_true, if_false, h2, show (0#32 == 1#32) = false from rfl, Bool.false_and]
                refine ⟨⟨j, by simp only [conc, hst, stC]⟩, ?_, align _ _, rfl, (fun h => by cases h), rfl, rfl, rfl, rfl⟩
                simp only [ROut.abs, wayN_ofNat, if_true, Bool.false_eq_true, if_false]
                rw [show ((i.pc >>> 6) &&& 63#32).setWidth 6 = idxOf i.pc from idxR_low i.pc]
              | some d =>
                simp only [hx, Option.isSome_some, Bool.and_self, if_true]
                unfold Wk.latch
                simp only [base, Wk.start, Bool.and_false, Bool.false_eq_true, if_false, h2, show (0#32 == 1#32) = false from rfl, Bool.false_and]
                have hd' := hitData_line hd hx
                exact ⟨⟨j, by simp only [conc, hst, stC]⟩, by subst hd'; rfl, align _ _, rfl, (fun h => by cases h), rfl, rfl, rfl, rfl⟩

end

end Verif.ICacheBits

import Verif.Model.Tlb
import Verif.Props.RefMmu

/-! The walk of the shared walker and the use of an entry, against the manual's Sv32. -/
namespace Verif.TlbSpec
open Verif.Spec Verif.Spec.Sv32 Verif.Ptw Verif.Tlb
open Verif.Props (busView rootEntry nextEntry specAccess effPriv)
open Verif.RefMmu (flag_iff and_low shr_toNat vpn_shift super_aligned pa_super pa_page permitted_iff ad_iff userOk permOk adOk code modeCode)

/-- The walk on words: the leaf and whether it is a 4 MiB one. -/
def leafB (mem : BitVec 32 → BitVec 32) (satp v : BitVec 32) : Option (BitVec 32 × Bool) :=
  let p1 := mem (addr1 ⟨v, satp⟩)
  if bad p1 then none
  else if isLeaf p1 then (if (p1 >>> 10) &&& 0x3FF#32 ≠ 0#32 then none else some (p1, true))
  else
    let p2 := mem (addr2 p1 v)
    if bad p2 || !isLeaf p2 then none else some (p2, false)

theorem add_page (x y : BitVec 32) : (x <<< 12) + y = BitVec.ofNat 32 (x.toNat * 2 ^ 12 + y.toNat) := by
  apply BitVec.eq_of_toNat_eq
  rw [BitVec.toNat_add, BitVec.toNat_shiftLeft, Nat.shiftLeft_eq, BitVec.toNat_ofNat]
  omega

theorem addr1_eq (satp v : BitVec 32) : addr1 ⟨v, satp⟩ = rootEntry satp v := by
  unfold addr1 rootEntry
  dsimp only
  rw [add_page, vpn_shift, and_low _ _ 22 (by decide)]
  rfl

theorem addr2_eq (pte v : BitVec 32) : addr2 pte v = nextEntry pte v := by
  unfold addr2 nextEntry
  have hp := pte.isLt
  have hpp : ppn pte.toNat = pte.toNat / 2 ^ 10 := rfl
  rw [add_page, vpn_shift, and_low _ _ 22 (by decide), shr_toNat, hpp,
    Nat.mod_eq_of_lt (show pte.toNat / 2 ^ 10 < 2 ^ 22 by omega)]
  rfl

theorem bad_iff (p : BitVec 32) : bad p = true ↔ (¬ V p.toNat ∨ (¬ R p.toNat ∧ W p.toNat)) := by
  unfold bad
  simp only [flag_iff]
  cases p.getLsbD 0 <;> cases p.getLsbD 1 <;> cases p.getLsbD 2 <;> decide

theorem leaf_iff (p : BitVec 32) : isLeaf p = true ↔ (R p.toNat ∨ X p.toNat) := by
  unfold isLeaf
  simp only [flag_iff]
  cases p.getLsbD 1 <;> cases p.getLsbD 3 <;> decide

/-- The manual's leaf. -/
theorem leaf_eq (mem : BitVec 32 → BitVec 32) (satp v : BitVec 32) :
    leaf (busView mem) satp.toNat v.toNat = (leafB mem satp v).map (fun p => (p.1.toNat, p.2.toNat)) := by
  have e : leaf (busView mem) satp.toNat v.toNat =
      let pte1 := mem (rootEntry satp v)
      if ¬ V pte1.toNat ∨ (¬ R pte1.toNat ∧ W pte1.toNat) then none
      else if R pte1.toNat ∨ X pte1.toNat then (if ppn pte1.toNat % 2 ^ (10 * 1) = 0 then some (pte1.toNat, 1) else none)
      else
        let pte2 := mem (nextEntry pte1 v)
        if ¬ V pte2.toNat ∨ (¬ R pte2.toNat ∧ W pte2.toNat) then none
        else if R pte2.toNat ∨ X pte2.toNat then (if ppn pte2.toNat % 2 ^ (10 * 0) = 0 then some (pte2.toNat, 0) else none)
        else none := rfl
  rw [e]
  unfold leafB
  rw [addr1_eq]
  dsimp only
  generalize mem (rootEntry satp v) = p1
  rw [addr2_eq]
  generalize mem (nextEntry p1 v) = p2
  by_cases h1 : bad p1 = true
  · rw [if_pos ((bad_iff p1).mp h1), if_pos h1]; rfl
  · rw [if_neg (fun h => h1 ((bad_iff p1).mpr h)), if_neg h1]
    by_cases h2 : isLeaf p1 = true
    · rw [if_pos ((leaf_iff p1).mp h2), if_pos h2]
      by_cases h3 : (p1 >>> 10) &&& 0x3FF#32 = 0#32
      · rw [if_pos ((super_aligned p1).mp h3), if_neg (fun h => h h3)]; rfl
      · rw [if_neg (fun h => h3 ((super_aligned p1).mpr h)), if_pos h3]; rfl
    · rw [if_neg (fun h => h2 ((leaf_iff p1).mpr h)), if_neg h2]
      by_cases h4 : bad p2 = true
      · rw [if_pos ((bad_iff p2).mp h4), h4]; rfl
      · rw [if_neg (fun h => h4 ((bad_iff p2).mpr h))]
        by_cases h5 : isLeaf p2 = true
        · rw [if_pos ((leaf_iff p2).mp h5), if_pos (by rw [Nat.mul_zero, Nat.pow_zero, Nat.mod_one]), h5]
          have : bad p2 = false := by simpa using h4
          rw [this]; rfl
        · rw [if_neg (fun h => h5 ((leaf_iff p2).mpr h))]
          have h5 : isLeaf p2 = false := by simpa using h5
          rw [h5]
          cases bad p2 <;> rfl

theorem code_ne (acc : Access) : (code acc = 0 ↔ acc = .fetch) ∧ (code acc = 1 ↔ acc = .load) ∧ (code acc = 2 ↔ acc = .store) := by
  cases acc <;> decide

/-- The permission check of the TLB is the manual's. -/
theorem checkPerm_iff (pte : BitVec 32) (acc : Access) (mode : Mode) (sum mxr : Bool) :
    checkPerm (pte.setWidth 8) (code acc) (modeCode mode) sum mxr = true ↔
      permitted pte.toNat acc mode sum mxr ∧ A pte.toNat ∧ (acc = .store → D pte.toNat) := by
  have hb : ∀ i, i < 8 → (pte.setWidth 8).getLsbD i = pte.getLsbD i := by
    intro i hi; rw [BitVec.getLsbD_setWidth]; simp [hi]
  rw [permitted_iff, ad_iff]
  unfold checkPerm permOk userOk adOk
  rw [hb 1 (by decide), hb 2 (by decide), hb 3 (by decide), hb 4 (by decide), hb 6 (by decide), hb 7 (by decide)]
  generalize pte.getLsbD 1 = r
  generalize pte.getLsbD 2 = w
  generalize pte.getLsbD 3 = x
  generalize pte.getLsbD 4 = u
  generalize pte.getLsbD 6 = a
  generalize pte.getLsbD 7 = d
  revert r w x u a d sum mxr
  cases acc <;> cases mode <;> decide

/-- What the TLB does with the leaf of an address. -/
def useLeaf (c : Ctx) (type : Nat) (v : BitVec 32) (l : Option (BitVec 32 × Bool)) : Option (BitVec 32) :=
  match l with
  | none => none
  | some (pte, sup) =>
    if checkPerm (pte.setWidth 8) type (c.eff type) c.sum c.mxr then some ((mkEntry v c.satp pte sup).paddr v) else none

theorem paddr_eq (v satp pte : BitVec 32) (sup : Bool) (ha : sup = true → (pte >>> 10) &&& 0x3FF#32 = 0#32) :
    (mkEntry v satp pte sup).paddr v =
      BitVec.ofNat 32 (ppn pte.toNat * 2 ^ 12 + v.toNat % 2 ^ (12 + 10 * sup.toNat)) := by
  have hw : ((pte >>> 10).setWidth 22).setWidth 32 = pte >>> 10 := by
    apply BitVec.eq_of_toNat_eq
    rw [BitVec.toNat_setWidth, BitVec.toNat_setWidth, shr_toNat]
    have := pte.isLt
    omega
  unfold Entry.paddr mkEntry
  dsimp only
  rw [hw]
  cases sup with
  | false => exact pa_page pte v
  | true =>
    rw [if_pos rfl]
    have ha := ha rfl
    have h := pa_super pte v ((super_aligned pte).mp ha)
    rw [show (12 + 10 * true.toNat) = 12 + 10 * 1 from rfl, ← h]
    congr 1
    have : (pte >>> 10) <<< 12 = (pte <<< 2) &&& 0xFFFFF000#32 := by
      apply BitVec.eq_of_getLsbD_eq
      intro i hi
      have hm : ∀ i : Fin 32, (0xFFFFF000#32).getLsbD i.val = decide (12 ≤ i.val) := by decide
      rw [BitVec.getLsbD_and, hm ⟨i, hi⟩, BitVec.getLsbD_shiftLeft, BitVec.getLsbD_shiftLeft, BitVec.getLsbD_ushiftRight]
      by_cases h : 12 ≤ i
      · have : 10 + (i - 12) = i - 2 := by omega
        simp [hi, h, this, show ¬ i < 2 by omega, show ¬ i < 12 by omega]
      · simp [h, show i < 12 by omega]
    rw [this, BitVec.and_assoc]
    rfl

/-- Aligned leaves. -/
theorem leafB_aligned {mem : BitVec 32 → BitVec 32} {satp v pte : BitVec 32} {sup : Bool} (h : leafB mem satp v = some (pte, sup)) :
    sup = true → (pte >>> 10) &&& 0x3FF#32 = 0#32 := by
  intro hs
  unfold leafB at h
  dsimp only at h
  split at h
  · cases h
  · split at h
    · split at h
      · cases h
      · rename_i e
        injection h with h
        injection h with h1 h2
        rw [← h1]; simpa using e
    · split at h
      · cases h
      · injection h with h
        injection h with h1 h2
        rw [← h2] at hs; cases hs

theorem mpp_word (m : BitVec 32) : ((m >>> 11) &&& 3#32).toNat = RefMmu.mpp m := rfl

theorem mpp_lt (m : BitVec 32) : RefMmu.mpp m < 4 := by
  rw [Verif.Props.mpp_eq]; exact Nat.mod_lt _ (by decide)

theorem ofCsr_eff (mstatus satp : BitVec 32) (priv : Nat) (hp : priv < 4) (acc : Access) :
    (Ctx.ofCsr mstatus satp priv).eff (code acc) = effPriv mstatus priv acc := by
  rw [← Verif.Props.eff_eq]
  have hm : (Ctx.ofCsr mstatus satp priv).mprv = mstatus.getLsbD 17 := rfl
  have hq : (Ctx.ofCsr mstatus satp priv).mpp = RefMmu.mpp mstatus := rfl
  have hr : (Ctx.ofCsr mstatus satp priv).priv = priv := rfl
  have h1 := Nat.mod_eq_of_lt (mpp_lt mstatus)
  have h2 := Nat.mod_eq_of_lt hp
  generalize Ctx.ofCsr mstatus satp priv = c at hm hq hr
  generalize RefMmu.mpp mstatus = q at hq h1
  unfold Ctx.eff
  rw [hm, hq, hr, h1, h2]

/-- The manual's translation of an address, in the TLB's terms. -/
theorem spec_use (mem : BitVec 32 → BitVec 32) (mstatus satp : BitVec 32) (priv : Nat) (v : BitVec 32) (acc : Access)
    (hp : priv < 4) (he : effPriv mstatus priv acc ∈ [0, 1, 3]) :
    (specAccess (busView mem) mstatus satp priv v acc).map (BitVec.ofNat 32) =
      if (Ctx.ofCsr mstatus satp priv).eff (code acc) = 3 ∨ satp &&& 0x80000000#32 = 0#32 then some v
      else useLeaf (Ctx.ofCsr mstatus satp priv) (code acc) v (leafB mem satp v) := by
  have hs : satp &&& 0x80000000#32 = 0#32 ↔ satp.toNat / 2 ^ 31 = 0 := by
    have : satp &&& 0x80000000#32 = 0#32 ↔ satp.getLsbD 31 = false := by
      rw [show (0x80000000#32 : BitVec 32) = BitVec.twoPow 32 31 by decide, BitVec.and_twoPow]
      cases satp.getLsbD 31 <;> decide
    rw [this]
    have h := flag_iff satp 31
    unfold flag at h
    have hl := satp.isLt
    cases hb : satp.getLsbD 31
    · rw [hb] at h; simp at h; simp; omega
    · rw [hb] at h; simp at h; simp; omega
  rw [ofCsr_eff _ _ _ hp]
  unfold specAccess
  dsimp only
  by_cases hoff : satp.toNat / 2 ^ 31 = 0 ∨ effPriv mstatus priv acc = 3
  · rw [if_pos hoff, if_pos (hoff.elim (fun h => .inr (hs.mpr h)) .inl)]
    simp
  · have hoff' : ¬ (effPriv mstatus priv acc = 3 ∨ satp &&& 0x80000000#32 = 0#32) :=
      fun h => hoff (h.elim .inr (fun h => .inl (hs.mp h)))
    rw [if_neg hoff, if_neg (c := effPriv mstatus priv acc = 3 ∨ satp &&& 0x80000000#32 = 0#32) hoff']
    have hm : effPriv mstatus priv acc = modeCode (if effPriv mstatus priv acc = 0 then Mode.user else .supervisor) := by
      have : effPriv mstatus priv acc ≠ 3 := fun h => hoff (.inr h)
      simp only [List.mem_cons, List.not_mem_nil, or_false] at he
      rcases he with he | he | he
      · rw [he]; decide
      · rw [he]; decide
      · exact absurd he this
    generalize (if effPriv mstatus priv acc = 0 then Mode.user else Mode.supervisor) = mode at hm ⊢
    have f18 : decide (mstatus.toNat / 2 ^ 18 % 2 = 1) = mstatus.getLsbD 18 := by
      have := flag_iff mstatus 18; unfold flag at this
      cases hb : mstatus.getLsbD 18 <;> simp_all
    have f19 : decide (mstatus.toNat / 2 ^ 19 % 2 = 1) = mstatus.getLsbD 19 := by
      have := flag_iff mstatus 19; unfold flag at this
      cases hb : mstatus.getLsbD 19 <;> simp_all
    rw [f18, f19, Verif.Props.spec_eq]
    have hsum : (Ctx.ofCsr mstatus satp priv).sum = mstatus.getLsbD 18 := rfl
    have hmxr : (Ctx.ofCsr mstatus satp priv).mxr = mstatus.getLsbD 19 := rfl
    have hsatp : (Ctx.ofCsr mstatus satp priv).satp = satp := rfl
    have key : ∀ (pte : BitVec 32) (sup : Bool) (hal : sup = true → (pte >>> 10) &&& 0x3FF#32 = 0#32),
        (if leafOk pte.toNat sup.toNat acc mode (mstatus.getLsbD 18) (mstatus.getLsbD 19) then
          some (ppn pte.toNat * 2 ^ 12 + v.toNat % 2 ^ (12 + 10 * sup.toNat)) else none).map (BitVec.ofNat 32) =
        useLeaf (Ctx.ofCsr mstatus satp priv) (code acc) v (some (pte, sup)) := by
      intro pte sup hal
      unfold useLeaf
      dsimp only
      rw [ofCsr_eff _ _ _ hp, hm, hsum, hmxr, hsatp]
      have hali : ppn pte.toNat % 2 ^ (10 * sup.toNat) = 0 := by
        cases sup with
        | false => exact Nat.mod_one _
        | true => exact (super_aligned pte).mp (hal rfl)
      have hck := checkPerm_iff pte acc mode (mstatus.getLsbD 18) (mstatus.getLsbD 19)
      by_cases hk : checkPerm (pte.setWidth 8) (code acc) (modeCode mode) (mstatus.getLsbD 18) (mstatus.getLsbD 19) = true
      · rw [if_pos hk, if_pos ⟨(hck.mp hk).1, hali, (hck.mp hk).2⟩]
        rw [paddr_eq _ _ _ _ hal]; rfl
      · rw [if_neg hk, if_neg (fun h => hk (hck.mpr ⟨h.1, h.2.2⟩))]; rfl
    unfold leafB
    rw [addr1_eq]
    dsimp only
    generalize mem (rootEntry satp v) = p1
    rw [addr2_eq]
    generalize mem (nextEntry p1 v) = p2
    by_cases h1 : bad p1 = true
    · rw [if_pos ((bad_iff p1).mp h1), if_pos h1]; rfl
    · rw [if_neg (fun h => h1 ((bad_iff p1).mpr h)), if_neg h1]
      by_cases h2 : isLeaf p1 = true
      · rw [if_pos ((leaf_iff p1).mp h2), if_pos h2]
        by_cases h3 : (p1 >>> 10) &&& 0x3FF#32 = 0#32
        · rw [if_neg (c := (p1 >>> 10) &&& 0x3FF#32 ≠ 0#32) (fun h => h h3)]
          exact key p1 true (fun _ => h3)
        · rw [if_pos h3, if_neg (fun h => h3 ((super_aligned p1).mpr h.2.1))]; rfl
      · rw [if_neg (fun h => h2 ((leaf_iff p1).mpr h)), if_neg h2]
        by_cases h4 : bad p2 = true
        · rw [if_pos ((bad_iff p2).mp h4), h4]; rfl
        · rw [if_neg (fun h => h4 ((bad_iff p2).mpr h))]
          by_cases h5 : isLeaf p2 = true
          · rw [if_pos ((leaf_iff p2).mp h5), h5]
            have h4 : bad p2 = false := by simpa using h4
            rw [h4]
            exact key p2 false (fun h => by cases h)
          · rw [if_neg (fun h => h5 ((leaf_iff p2).mpr h))]
            have h5 : isLeaf p2 = false := by simpa using h5
            rw [h5]
            cases bad p2 <;> rfl

/-! ## Which addresses share a leaf -/

theorem vpn1_bits {v v' : BitVec 32} (h : vpn1Of v = vpn1Of v') : (v >>> 22) &&& 0x3FF#32 = (v' >>> 22) &&& 0x3FF#32 := by
  have h := congrArg BitVec.toNat h
  unfold vpn1Of at h
  rw [BitVec.toNat_setWidth, BitVec.toNat_setWidth] at h
  apply BitVec.eq_of_toNat_eq
  rw [and_low _ _ 10 (by decide), and_low _ _ 10 (by decide)]
  exact h

theorem vpn0_bits {v v' : BitVec 32} (h : vpn0Of v = vpn0Of v') : (v >>> 12) &&& 0x3FF#32 = (v' >>> 12) &&& 0x3FF#32 := by
  have h := congrArg BitVec.toNat h
  unfold vpn0Of at h
  rw [BitVec.toNat_setWidth, BitVec.toNat_setWidth] at h
  apply BitVec.eq_of_toNat_eq
  rw [and_low _ _ 10 (by decide), and_low _ _ 10 (by decide)]
  exact h

theorem page_vpn {v v' : BitVec 32} (h : v >>> 12 = v' >>> 12) : vpn1Of v = vpn1Of v' ∧ vpn0Of v = vpn0Of v' := by
  have e : ∀ x : BitVec 32, x >>> 22 = (x >>> 12) >>> 10 := by
    intro x; apply BitVec.eq_of_toNat_eq; rw [shr_toNat, shr_toNat, shr_toNat, Nat.div_div_eq_div_mul]
  constructor
  · unfold vpn1Of; rw [e, e v', h]
  · unfold vpn0Of; rw [h]

/-- Addresses of the same 4 MiB region share a 4 MiB leaf; addresses of the same page share any leaf. -/
theorem leafB_share {mem : BitVec 32 → BitVec 32} {satp v v' pte : BitVec 32} {sup : Bool} (h : leafB mem satp v = some (pte, sup))
    (h1 : vpn1Of v = vpn1Of v') (h0 : sup = true ∨ vpn0Of v = vpn0Of v') : leafB mem satp v' = some (pte, sup) := by
  have ha : addr1 ⟨v', satp⟩ = addr1 ⟨v, satp⟩ := by unfold addr1; dsimp only; rw [vpn1_bits h1]
  unfold leafB at h ⊢
  rw [ha]
  dsimp only at h ⊢
  split at h
  · cases h
  · rename_i e1
    rw [if_neg e1]
    split at h
    · rename_i e2
      rw [if_pos e2]; exact h
    · rename_i e2
      rw [if_neg e2]
      split at h
      · cases h
      · have hs : sup = false := by injection h with h; injection h with _ h; exact h.symm
        rcases h0 with h0 | h0
        · rw [hs] at h0; cases h0
        · have hb : addr2 (mem (addr1 ⟨v, satp⟩)) v' = addr2 (mem (addr1 ⟨v, satp⟩)) v := by
            unfold addr2; rw [vpn0_bits h0]
          rename_i e3
          rw [hb, if_neg e3]
          exact h

theorem leafB_page {mem : BitVec 32 → BitVec 32} {satp v v' : BitVec 32} (h : v >>> 12 = v' >>> 12) :
    leafB mem satp v = leafB mem satp v' := by
  obtain ⟨h1, h0⟩ := page_vpn h
  have ha : addr1 ⟨v', satp⟩ = addr1 ⟨v, satp⟩ := by unfold addr1; dsimp only; rw [vpn1_bits h1]
  have hb : ∀ p, addr2 p v' = addr2 p v := by intro p; unfold addr2; rw [vpn0_bits h0]
  unfold leafB
  rw [ha]
  dsimp only
  rw [hb]

/-- Software's duty, on words. -/
def CohB (mem : BitVec 32 → BitVec 32) (S : List (BitVec 32)) : Prop :=
  ∀ s ∈ S, ∀ t ∈ S, ∀ v, (asidOf s = asidOf t ∨ ∃ p, leafB mem s v = some p ∧ p.1.getLsbD 5 = true) → leafB mem t v = leafB mem s v

theorem coh_words {mem : BitVec 32 → BitVec 32} {S : List (BitVec 32)} (h : Coherent (busView mem) (S.map (·.toNat))) : CohB mem S := by
  intro s hs t ht v hc
  have inj : ∀ a b : Option (BitVec 32 × Bool), a.map (fun p => (p.1.toNat, p.2.toNat)) = b.map (fun p => (p.1.toNat, p.2.toNat)) → a = b := by
    intro a b e
    cases a with
    | none => cases b with
      | none => rfl
      | some q => cases e
    | some p => cases b with
      | none => cases e
      | some q =>
        obtain ⟨p1, p2⟩ := p
        obtain ⟨q1, q2⟩ := q
        injection e with e
        injection e with e1 e2
        have e1 := BitVec.eq_of_toNat_eq e1
        subst e1
        cases p2 <;> cases q2 <;> first | rfl | cases e2
  apply inj
  rw [← leaf_eq, ← leaf_eq]
  refine h s.toNat (List.mem_map_of_mem hs) t.toNat (List.mem_map_of_mem ht) v.toNat v.isLt ?_
  rcases hc with hc | ⟨p, hp, hg⟩
  · left
    have hc := congrArg BitVec.toNat hc
    unfold asidOf at hc
    rw [BitVec.toNat_setWidth, BitVec.toNat_setWidth, shr_toNat, shr_toNat] at hc
    exact hc
  · right
    refine ⟨_, by rw [leaf_eq, hp]; rfl, ?_⟩
    exact (flag_iff p.1 5).mpr hg

end Verif.TlbSpec

import Verif.Proofs.TlbBits
import Verif.Model.TlbPacked

/-
One lane of the bit-packed TLB does what `Tlb.lane` does.
-/
namespace Verif.TlbKernel
open Verif.Tlb (Ctx Result Ask Entry Walk Refill LaneOut)

/-! ### Numbers -/

theorem setWidth_inj {n : Nat} (hn : n ≤ 32) (a b : BitVec n) : (a.setWidth 32 = b.setWidth 32) ↔ a = b := by
  constructor
  · intro h
    apply BitVec.eq_of_toNat_eq
    have h' := congrArg BitVec.toNat h
    simp only [BitVec.toNat_setWidth] at h'
    have hp : 2 ^ n ≤ 2 ^ 32 := Nat.pow_le_pow_right (by omega) hn
    rwa [Nat.mod_eq_of_lt (by have := a.isLt; omega), Nat.mod_eq_of_lt (by have := b.isLt; omega)] at h'
  · intro h; rw [h]

theorem trunc_toNat (w : Nat) (v : BitVec 32) : (trunc w v).toNat = v.toNat % 2 ^ w := by
  simp only [trunc, BitVec.toNat_setWidth]
  apply Nat.mod_eq_of_lt
  exact Nat.lt_of_le_of_lt (Nat.mod_le _ _) v.isLt

theorem and_mask (v : BitVec 32) (m : BitVec 32) (n : Nat) (h : m.toNat = 2 ^ n - 1) : v &&& m = trunc n v := by
  apply BitVec.eq_of_toNat_eq
  rw [BitVec.toNat_and, h, Nat.and_two_pow_sub_one_eq_mod, trunc_toNat]

theorem and_1FF (v : BitVec 32) : v &&& 0x1FF#32 = (v.setWidth 9).setWidth 32 := and_mask v _ 9 rfl
theorem and_3FF (v : BitVec 32) : v &&& 0x3FF#32 = (v.setWidth 10).setWidth 32 := and_mask v _ 10 rfl
theorem and_3FFFFF (v : BitVec 32) : v &&& 0x3FFFFF#32 = (v.setWidth 22).setWidth 32 := and_mask v _ 22 rfl
theorem and_FF (v : BitVec 32) : v &&& 0xFF#32 = (v.setWidth 8).setWidth 32 := and_mask v _ 8 rfl
theorem and_3 (v : BitVec 32) : v &&& 3#32 = trunc 2 v := and_mask v _ 2 rfl

theorem bit_test (v : BitVec 32) (k : Nat) (hk : k < 32) : (v &&& BitVec.twoPow 32 k != 0#32) = v.getLsbD k := by
  rw [BitVec.and_twoPow]
  cases v.getLsbD k
  · rfl
  · rw [if_pos rfl, bne_iff_ne]
    intro h
    have := congrArg (fun x => x.getLsbD k) h
    simp [BitVec.getLsbD_twoPow, hk] at this

theorem asid_eq (satp : BitVec 32) : asidOf satp = (Tlb.asidOf satp).setWidth 32 := and_1FF _
theorem vpn1_eq (v : BitVec 32) : (v >>> 22) &&& 0x3FF#32 = (Tlb.vpn1Of v).setWidth 32 := and_3FF _
theorem vpn0_eq (v : BitVec 32) : (v >>> 12) &&& 0x3FF#32 = (Tlb.vpn0Of v).setWidth 32 := and_3FF _

/-! ### Records -/

/-- An entry of the table in the function's record. -/
def KEntry.of : Option Entry → KEntry
  | none => {}
  | some e => { valid := true, global := e.global, asid := e.asid.setWidth 32, level := e.super, vpn1 := e.vpn1.setWidth 32
                vpn0 := e.vpn0.setWidth 32, ppn := e.ppn.setWidth 32, perm := e.perm.setWidth 32 }

def KWalk.of : Option Walk → KWalk
  | none => {}
  | some w => { active := true, sent := w.sent, vaddr := w.vaddr, type := BitVec.ofNat 32 w.type, satp := w.satp
                eff := BitVec.ofNat 32 w.eff, mxr := w.mxr, sum := w.sum }

def KRefill.of (cap : Nat) : Option Refill → KRefill
  | none => {}
  | some r => { valid := true, entry := KEntry.of (some r.entry), slot := BitVec.ofNat 32 r.slot
                next := BitVec.ofNat 32 ((r.slot + 1) % cap) }

def KLookup.of : Option Entry → KLookup
  | none => {}
  | some e => { hit := true, entry := KEntry.of (some e) }

/-- The port shows what `v` says, as far as it is used. -/
structure KView.Shows (k : KView) (v : Ptw.View) : Prop where
  ready : k.ready = v.ready
  valid : k.respValid = v.resp.isSome
  fault : ∀ r, v.resp = some r → k.resp.fault = r.fault
  level : ∀ r, v.resp = some r → k.resp.level = r.super
  page : ∀ r, v.resp = some r → k.resp.vaddr >>> 12 = r.vaddr >>> 12
  perm : ∀ r, v.resp = some r → k.resp.pte.setWidth 8 = r.pte.setWidth 8
  ppn : ∀ r, v.resp = some r → (k.resp.pte >>> 10).setWidth 22 = (r.pte >>> 10).setWidth 22

theorem KView.of_shows (junk : KResp) (v : Ptw.View) : (KView.of junk v).Shows v := by
  constructor <;> first | rfl | (intro r h; simp [KView.of, KResp.of, h])

/-! ### Truncation keeps everything that fits -/

theorem trunc_setWidth {n : Nat} (hn : n ≤ 32) (a : BitVec n) : trunc n (a.setWidth 32) = a.setWidth 32 := by
  apply trunc_of_lt
  rw [BitVec.toNat_setWidth]
  exact Nat.lt_of_le_of_lt (Nat.mod_le _ _) a.isLt

theorem KEntry.trunc_of (e : Option Entry) : (KEntry.of e).trunc = KEntry.of e := by
  cases e with
  | none => rfl
  | some e =>
    simp only [KEntry.of, KEntry.trunc]
    rw [trunc_setWidth (by omega), trunc_setWidth (by omega), trunc_setWidth (by omega), trunc_setWidth (by omega), trunc_setWidth (by omega)]

theorem KLookup.trunc_of (e : Option Entry) : { KLookup.of e with entry := (KLookup.of e).entry.trunc } = KLookup.of e := by
  cases e with
  | none => rfl
  | some e => simp only [KLookup.of, KEntry.trunc_of]

/-- A walk's fields fit into two bits. -/
def WalkFits (w : Option Walk) : Prop := ∀ x, w = some x → x.type < 4 ∧ x.eff < 4

theorem trunc_ofNat {w n : Nat} (h : n < 2 ^ w) : trunc w (BitVec.ofNat 32 n) = BitVec.ofNat 32 n := by
  apply trunc_of_lt
  rw [BitVec.toNat_ofNat]
  exact Nat.lt_of_le_of_lt (Nat.mod_le _ _) h

theorem KWalk.trunc_of {w : Option Walk} (h : WalkFits w) : (KWalk.of w).trunc = KWalk.of w := by
  cases w with
  | none => rfl
  | some w =>
    obtain ⟨h1, h2⟩ := h w rfl
    simp only [KWalk.of, KWalk.trunc]
    rw [trunc_ofNat h1, trunc_ofNat h2]

/-- A refill's slot is in the table. -/
def RefillFits (cap : Nat) (r : Option Refill) : Prop := ∀ x, r = some x → x.slot < cap

theorem KRefill.trunc_of {cap : Nat} {r : Option Refill} (h : RefillFits cap r) :
    (KRefill.of cap r).trunc (slotWidth cap) = KRefill.of cap r := by
  cases r with
  | none => simp only [KRefill.of, KRefill.trunc]; rw [trunc_of_lt (Nat.two_pow_pos _)]; rfl
  | some r =>
    have hs := h r rfl
    simp only [KRefill.of, KRefill.trunc, KEntry.trunc_of]
    rw [trunc_ofNat (slotWidth_fits cap _ hs), trunc_ofNat (slotWidth_fits cap _ (Nat.mod_lt _ (by omega)))]

theorem page_trunc (x : BitVec 32) : (trunc 20 (x >>> 12) <<< 12) >>> 12 = x >>> 12 := by
  rw [trunc_of_lt (by rw [BitVec.toNat_ushiftRight, Nat.shiftRight_eq_div_pow]; have := x.isLt; omega)]
  apply BitVec.eq_of_getLsbD_eq
  intro j hj
  simp only [BitVec.getLsbD_ushiftRight, BitVec.getLsbD_shiftLeft]
  by_cases h : 12 + j < 32
  · simp [h]
  · rw [BitVec.getLsbD_of_ge x (12 + j) (by omega)]
    simp [h]

theorem pte_trunc (p : BitVec 32) (j : Nat) (hj : j < 32) :
    (unpackPte (trunc 30 (packPte p))).getLsbD j = ((decide (j < 8) || decide (10 ≤ j)) && p.getLsbD j) := by
  have h1 : ∀ k, (trunc 30 (packPte p)).getLsbD k = (decide (k < 30) && ((decide (8 ≤ k) && p.getLsbD (k + 2)) || (decide (k < 8) && p.getLsbD k))) := by
    intro k
    rw [trunc_getLsbD, packPte, and_FF, and_3FFFFF]
    simp only [BitVec.getLsbD_or, BitVec.getLsbD_shiftLeft, BitVec.getLsbD_setWidth, BitVec.getLsbD_ushiftRight]
    by_cases h30 : k < 30
    · by_cases h8 : k < 8
      · simp [h8, h30, show k < 32 by omega, show ¬ 8 ≤ k by omega]
      · simp [h8, h30, show k < 32 by omega, show 8 ≤ k by omega, show k - 8 < 22 by omega, show k - 8 < 32 by omega,
          show 10 + (k - 8) = k + 2 by omega]
    · simp [h30]
  simp only [unpackPte, BitVec.getLsbD_or, BitVec.getLsbD_shiftLeft, BitVec.getLsbD_ushiftRight, and_FF, BitVec.getLsbD_setWidth, h1]
  by_cases h8 : j < 8
  · simp [h8, hj, show j < 10 by omega, show j < 30 by omega, show ¬ 8 ≤ j by omega]
  · by_cases h10 : j < 10
    · simp [h8, h10, hj]; omega
    · simp [h8, h10, hj, show 10 ≤ j by omega, show 8 + (j - 10) < 30 by omega, show 8 + (j - 10) + 2 = j by omega,
        show ¬ 8 + (j - 10) < 8 by omega]

theorem KView.Shows.trunc {k : KView} {v : Ptw.View} (h : k.Shows v) : k.trunc.Shows v := by
  refine ⟨h.ready, h.valid, h.fault, h.level, fun r hr => ?_, fun r hr => ?_, fun r hr => ?_⟩
  · simp only [KView.trunc, KResp.trunc, page_trunc]
    exact h.page r hr
  · rw [← h.perm r hr]
    apply BitVec.eq_of_getLsbD_eq
    intro j hj
    simp only [KView.trunc, KResp.trunc, BitVec.getLsbD_setWidth]
    rw [pte_trunc _ _ (by omega)]
    simp [hj]
  · rw [← h.ppn r hr]
    apply BitVec.eq_of_getLsbD_eq
    intro j hj
    simp only [KView.trunc, KResp.trunc, BitVec.getLsbD_setWidth, BitVec.getLsbD_ushiftRight]
    rw [pte_trunc _ _ (by omega)]
    simp [hj]

/-! ### The functions of a lane -/

theorem checkPerm_eq (perm : BitVec 8) {type eff : Nat} (ht : type < 4) (he : eff < 4) (sum mxr : Bool) :
    checkPerm (perm.setWidth 32) (BitVec.ofNat 32 type) (BitVec.ofNat 32 eff) sum mxr = Tlb.checkPerm perm type eff sum mxr := by
  have hb : ∀ k, k < 8 → (perm.setWidth 32 &&& BitVec.twoPow 32 k != 0#32) = perm.getLsbD k := by
    intro k hk
    rw [bit_test _ _ (by omega), BitVec.getLsbD_setWidth]
    simp [show k < 32 by omega]
  have t : type = 0 ∨ type = 1 ∨ type = 2 ∨ type = 3 := by omega
  have e : eff = 0 ∨ eff = 1 ∨ eff = 2 ∨ eff = 3 := by omega
  have h1 := hb 1 (by omega)
  have h2 := hb 2 (by omega)
  have h3 := hb 3 (by omega)
  have h4 := hb 4 (by omega)
  have h6 := hb 6 (by omega)
  have h7 := hb 7 (by omega)
  simp only [show BitVec.twoPow 32 1 = 2#32 from rfl] at h1
  simp only [show BitVec.twoPow 32 2 = 4#32 from rfl] at h2
  simp only [show BitVec.twoPow 32 3 = 8#32 from rfl] at h3
  simp only [show BitVec.twoPow 32 4 = 16#32 from rfl] at h4
  simp only [show BitVec.twoPow 32 6 = 64#32 from rfl] at h6
  simp only [show BitVec.twoPow 32 7 = 128#32 from rfl] at h7
  simp only [checkPerm, Tlb.checkPerm, h1, h2, h3, h4, h6, h7]
  generalize perm.getLsbD 1 = b1
  generalize perm.getLsbD 2 = b2
  generalize perm.getLsbD 3 = b3
  generalize perm.getLsbD 4 = b4
  generalize perm.getLsbD 6 = b6
  generalize perm.getLsbD 7 = b7
  rcases t with rfl | rfl | rfl | rfl <;> rcases e with rfl | rfl | rfl | rfl <;>
    revert b1 b2 b3 b4 b6 b7 sum mxr <;> decide

theorem eff_eq (c : Ctx) {type : Nat} (ht : type < 4) (i : CoreIn) (h1 : i.type = BitVec.ofNat 32 type)
    (h2 : trunc 2 i.priv = trunc 2 (BitVec.ofNat 32 c.priv)) (h3 : i.mprv = c.mprv)
    (h4 : trunc 2 i.mpp = trunc 2 (BitVec.ofNat 32 c.mpp)) : effPriv i = BitVec.ofNat 32 (c.eff type) := by
  have hm : ∀ n : Nat, trunc 2 (BitVec.ofNat 32 n) = BitVec.ofNat 32 (n % 4) := by
    intro n
    apply BitVec.eq_of_toNat_eq
    rw [trunc_toNat, BitVec.toNat_ofNat, BitVec.toNat_ofNat]
    omega
  simp only [effPriv, and_3, h1, h2, h3, h4, hm, Tlb.Ctx.eff]
  have t : type = 0 ∨ type = 1 ∨ type = 2 ∨ type = 3 := by omega
  rcases t with rfl | rfl | rfl | rfl <;> cases c.mprv <;> simp

theorem entryMatches_eq (e : Option Entry) (v satp : BitVec 32) :
    entryMatches (KEntry.of e) v (asidOf satp) = (e.map (fun e => e.hits v (Tlb.asidOf satp))).getD false := by
  cases e with
  | none => rfl
  | some e =>
    simp only [entryMatches, KEntry.of, vpn1_eq, vpn0_eq, asid_eq, Option.map_some, Option.getD_some, Tlb.Entry.hits]
    have ha : (e.asid.setWidth 32 == (Tlb.asidOf satp).setWidth 32) = decide (e.asid = Tlb.asidOf satp) := by
      rw [Bool.eq_iff_iff, beq_iff_eq, decide_eq_true_iff]; exact setWidth_inj (by omega) _ _
    have hb : (e.vpn1.setWidth 32 != (Tlb.vpn1Of v).setWidth 32) = !decide (e.vpn1 = Tlb.vpn1Of v) := by
      rw [bne]; congr 1
      rw [Bool.eq_iff_iff, beq_iff_eq, decide_eq_true_iff]; exact setWidth_inj (by omega) _ _
    have hc : (e.vpn0.setWidth 32 == (Tlb.vpn0Of v).setWidth 32) = decide (e.vpn0 = Tlb.vpn0Of v) := by
      rw [Bool.eq_iff_iff, beq_iff_eq, decide_eq_true_iff]; exact setWidth_inj (by omega) _ _
    rw [ha, hb, hc]
    cases e.global <;> cases decide (e.asid = Tlb.asidOf satp) <;> cases decide (e.vpn1 = Tlb.vpn1Of v) <;> simp

theorem paddr_eq (e : Entry) (v : BitVec 32) : composePaddr v (KEntry.of (some e)) = e.paddr v := rfl

/-! ### A lane -/

/-- The inputs of a lane stand for those of `Tlb.lane`. -/
structure LaneRel (cap repl : Nat) (c : Ctx) (q : Ask) (look : Option Entry) (walk : Option Walk) (refill : Option Refill)
    (v : Ptw.View) (i : CoreIn) : Prop where
  valid : i.valid = true
  vaddr : i.vaddr = q.vaddr
  type : i.type = BitVec.ofNat 32 q.type
  satp : i.satp = c.satp
  priv : trunc 2 i.priv = trunc 2 (BitVec.ofNat 32 c.priv)
  mxr : i.mxr = c.mxr
  sum : i.sum = c.sum
  mprv : i.mprv = c.mprv
  mpp : trunc 2 i.mpp = trunc 2 (BitVec.ofNat 32 c.mpp)
  look : i.lookup = KLookup.of look
  walk : i.walk = KWalk.of walk
  refill : i.refill = KRefill.of cap refill
  repl : i.repl = BitVec.ofNat 32 repl
  cap : i.cap = BitVec.ofNat 32 cap
  view : i.view.Shows v

def KReq.of (w : Option (Ptw.Req × Nat)) : KReq :=
  match w with
  | none => {}
  | some (r, t) => { valid := true, vaddr := r.vaddr, satp := r.satp, type := BitVec.ofNat 32 t }

theorem answer_retry {p : PortOut} (hv : p.valid = true) (h : p.result = 2#32) : p.answer = some .retry := by
  simp [PortOut.answer, hv, h]
theorem answer_fault {p : PortOut} (hv : p.valid = true) (h : p.result = 1#32) : p.answer = some .fault := by
  simp [PortOut.answer, hv, h]
theorem answer_ok {p : PortOut} {a : BitVec 32} (hv : p.valid = true) (h : p.result = 0#32) (ha : p.paddr = a) : p.answer = some (.ok a) := by
  simp [PortOut.answer, hv, h, ha]

/-- The outputs of a lane stand for those of `Tlb.lane`. -/
structure OutRel (cap : Nat) (o : LaneOut) (k : CoreOut) : Prop where
  answer : k.port.answer = some o.result
  walk : k.walk = KWalk.of o.walk
  refill : k.refill = KRefill.of cap o.refill
  req : ∃ t < 4, k.req = KReq.of (o.req.map (·, t))
  consumed : k.consumed = o.consumed

theorem hitOf_eq {cap repl : Nat} {c : Ctx} {q : Ask} {look : Option Entry} {walk : Option Walk} {refill : Option Refill}
    {v : Ptw.View} {i : CoreIn} (h : LaneRel cap repl c q look walk refill v i) :
    hitOf i = (Tlb.hitOf refill look q.vaddr (Tlb.asidOf c.satp)).map (fun e => KEntry.of (some e)) := by
  simp only [hitOf, h.refill, h.look, h.vaddr, h.satp]
  cases refill with
  | none =>
    cases look with
    | none => rfl
    | some e => rfl
  | some r =>
    simp only [KRefill.of, entryMatches_eq, Option.map_some, Option.getD_some, Tlb.hitOf, Bool.true_and]
    cases hh : r.entry.hits q.vaddr (Tlb.asidOf c.satp)
    · cases look <;> rfl
    · rfl

theorem ownWalk_eq {cap repl : Nat} {c : Ctx} {q : Ask} {look : Option Entry} {walk : Option Walk} {refill : Option Refill}
    {v : Ptw.View} {i : CoreIn} (h : LaneRel cap repl c q look walk refill v i) (hq : q.type < 4) :
    ownWalk i = (Tlb.ownWalk walk c q).map (fun w => KWalk.of (some w)) := by
  have he := eff_eq c hq i h.type h.priv h.mprv h.mpp
  simp only [ownWalk, he, h.walk, h.vaddr, h.satp, h.type, h.mxr, h.sum]
  cases walk with
  | none => rfl
  | some w =>
    simp only [KWalk.of, Tlb.ownWalk, Bool.not_true, Bool.false_eq_true, if_false]
    by_cases h1 : w.vaddr >>> 12 = q.vaddr >>> 12 <;> by_cases h2 : w.satp = c.satp <;> simp [h1, h2, KWalk.of]

theorem perm_and (p : BitVec 8) : p.setWidth 32 &&& 0xFF#32 = p.setWidth 32 := by
  rw [show p.setWidth 32 &&& 0xFF#32 = trunc 8 (p.setWidth 32) from and_FF _, trunc_setWidth (by omega)]

theorem global_eq (p : BitVec 32) : (p &&& 32#32 != 0#32) = p.getLsbD 5 := bit_test p 5 (by omega)

theorem coreEnd_rel {cap repl : Nat} {c : Ctx} {q : Ask} {look : Option Entry} {walk : Option Walk} {refill : Option Refill}
    {v : Ptw.View} {i : CoreIn} (h : LaneRel cap repl c q look walk refill v i) (hq : q.type < 4) (hc : 0 < cap) (hc' : cap < 2 ^ 31)
    (hr : repl < cap) {r : Ptw.Resp} (hv : v.resp = some r) (w : Walk) :
    OutRel cap (if r.vaddr >>> 12 ≠ w.vaddr >>> 12 then { result := .retry, walk := some w, refill := refill, consumed := true }
      else Tlb.finishWalk cap repl c q refill r) (coreEnd i (KWalk.of (some w))) := by
  have he := eff_eq c hq i h.type h.priv h.mprv h.mpp
  have hpage := h.view.page r hv
  have hperm : i.view.resp.pte &&& 0xFF#32 = (r.pte.setWidth 8).setWidth 32 := by rw [and_FF, h.view.perm r hv]
  have hppn : (i.view.resp.pte >>> 10) &&& 0x3FFFFF#32 = ((r.pte >>> 10).setWidth 22).setWidth 32 := by
    rw [and_3FFFFF, h.view.ppn r hv]
  have hg : (i.view.resp.pte &&& 32#32 != 0#32) = r.pte.getLsbD 5 := by
    rw [global_eq]
    have := congrArg (fun x => x.getLsbD 5) (h.view.perm r hv)
    simpa [BitVec.getLsbD_setWidth] using this
  have heff : c.eff q.type < 4 := by
    simp only [Tlb.Ctx.eff]; split <;> exact Nat.mod_lt _ (by omega)
  have hchk := checkPerm_eq (r.pte.setWidth 8) hq heff c.sum c.mxr
  have hslot : i.repl % i.cap = BitVec.ofNat 32 (repl % cap) := by
    apply BitVec.eq_of_toNat_eq
    rw [h.repl, h.cap, BitVec.toNat_umod]
    simp only [BitVec.toNat_ofNat]
    rw [Nat.mod_eq_of_lt (by omega : repl < 2 ^ 32), Nat.mod_eq_of_lt (by omega : cap < 2 ^ 32)]
    rw [Nat.mod_eq_of_lt (by have := Nat.mod_lt repl hc; omega : repl % cap < 2 ^ 32)]
  have hnext : (i.repl % i.cap + 1#32) % i.cap = BitVec.ofNat 32 ((repl % cap + 1) % cap) := by
    apply BitVec.eq_of_toNat_eq
    rw [hslot, h.cap, BitVec.toNat_umod, BitVec.toNat_add]
    simp only [BitVec.toNat_ofNat]
    have h1 := Nat.mod_lt repl hc
    have h2 := Nat.mod_lt (repl % cap + 1) hc
    rw [Nat.mod_eq_of_lt (by omega : repl % cap < 2 ^ 32), Nat.mod_eq_of_lt (by omega : cap < 2 ^ 32),
      Nat.mod_eq_of_lt (by omega : 1 < 2 ^ 32), Nat.mod_eq_of_lt (by omega : repl % cap + 1 < 2 ^ 32),
      Nat.mod_eq_of_lt (by omega : (repl % cap + 1) % cap < 2 ^ 32)]
  rw [hslot] at hnext
  have href : refillOf i = KRefill.of cap (some { slot := repl % cap, entry := Tlb.mkEntry q.vaddr c.satp r.pte r.super }) := by
    simp only [refillOf, KRefill.of, KEntry.of, Tlb.mkEntry, hslot, hnext, hperm, hppn, hg, h.view.level r hv, h.satp, h.vaddr, asid_eq,
      vpn1_eq, vpn0_eq]
  by_cases hp : r.vaddr >>> 12 = w.vaddr >>> 12
  · rw [if_neg (not_not_intro hp)]
    have hp' : (i.view.resp.vaddr >>> 12 != (KWalk.of (some w)).vaddr >>> 12) = false := by
      rw [hpage, hp]; simp [KWalk.of]
    simp only [coreEnd, hp', Bool.false_eq_true, if_false, hperm, h.type, he, h.sum, h.mxr, hchk, h.view.fault r hv, Tlb.finishWalk]
    cases hf : r.fault
    · cases hk : Tlb.checkPerm (r.pte.setWidth 8) q.type (c.eff q.type) c.sum c.mxr
      · simp only [Bool.false_or, Bool.not_false, if_true, Bool.false_eq_true, if_false]
        exact ⟨by first | exact answer_retry rfl rfl | exact answer_fault rfl rfl, rfl, h.refill, ⟨0, by decide, rfl⟩, rfl⟩
      · simp only [Bool.false_or, Bool.not_true, Bool.false_eq_true, if_false, Bool.true_eq_false]
        refine ⟨?_, rfl, href, ⟨0, by decide, rfl⟩, rfl⟩
        refine answer_ok rfl rfl ?_
        rw [href, h.vaddr]
        rfl
    · simp only [Bool.true_or, if_true]
      exact ⟨by first | exact answer_retry rfl rfl | exact answer_fault rfl rfl, rfl, h.refill, ⟨0, by decide, rfl⟩, rfl⟩
  · rw [if_pos hp]
    have hp' : (i.view.resp.vaddr >>> 12 != (KWalk.of (some w)).vaddr >>> 12) = true := by
      rw [hpage]; simpa [KWalk.of] using hp
    simp only [coreEnd, hp', if_true]
    exact ⟨by first | exact answer_retry rfl rfl | exact answer_fault rfl rfl, rfl, h.refill, ⟨0, by decide, rfl⟩, rfl⟩

theorem lane_rel {cap repl : Nat} {c : Ctx} {q : Ask} {look : Option Entry} {walk : Option Walk} {refill : Option Refill}
    {v : Ptw.View} {i : CoreIn} (h : LaneRel cap repl c q look walk refill v i) (hq : q.type < 4) (hw : WalkFits walk) (hc : 0 < cap)
    (hc' : cap < 2 ^ 31) (hr : repl < cap) : OutRel cap (Tlb.lane cap repl c q look walk refill v) (coreComb i) := by
  have he := eff_eq c hq i h.type h.priv h.mprv h.mpp
  have heff : c.eff q.type < 4 := by
    simp only [Tlb.Ctx.eff]; split <;> exact Nat.mod_lt _ (by omega)
  have h3 : (BitVec.ofNat 32 (c.eff q.type) == 3#32) = decide (c.eff q.type = 3) := by
    have t : c.eff q.type = 0 ∨ c.eff q.type = 1 ∨ c.eff q.type = 2 ∨ c.eff q.type = 3 := by omega
    rcases t with t | t | t | t <;> rw [t] <;> rfl
  simp only [coreComb, h.valid, Bool.not_true, Bool.false_eq_true, if_false, he, h3, h.satp]
  unfold Tlb.lane
  by_cases hid : c.eff q.type = 3 ∨ c.satp &&& 0x80000000#32 = 0#32
  · rw [if_pos hid, if_pos (by rcases hid with h | h <;> simp [h])]
    refine ⟨?_, h.walk, h.refill, ⟨0, by decide, rfl⟩, rfl⟩
    exact answer_ok rfl rfl h.vaddr
  · rw [if_neg hid, if_neg (by simp only [Bool.or_eq_true, decide_eq_true_eq, beq_iff_eq]; exact hid)]
    rw [hitOf_eq h]
    cases hh : Tlb.hitOf refill look q.vaddr (Tlb.asidOf c.satp) with
    | some e =>
      simp only [Option.map_some]
      have hp : (KEntry.of (some e)).perm &&& 0xFF#32 = e.perm.setWidth 32 := perm_and e.perm
      simp only [hp, h.type, h.sum, h.mxr, checkPerm_eq e.perm hq heff c.sum c.mxr]
      cases hk : Tlb.checkPerm e.perm q.type (c.eff q.type) c.sum c.mxr
      · simp only [Bool.not_false, if_true, Bool.false_eq_true, if_false]
        exact ⟨by first | exact answer_retry rfl rfl | exact answer_fault rfl rfl, h.walk, h.refill, ⟨0, by decide, rfl⟩, rfl⟩
      · simp only [Bool.not_true, Bool.false_eq_true, if_false, if_true]
        refine ⟨?_, h.walk, h.refill, ⟨0, by decide, rfl⟩, rfl⟩
        exact answer_ok rfl rfl (by rw [h.vaddr]; rfl)
    | none =>
      simp only [Option.map_none]
      rw [ownWalk_eq h hq]
      cases ho : Tlb.ownWalk walk c q with
      | none =>
        simp only [Option.map_none]
        exact ⟨by first | exact answer_retry rfl rfl | exact answer_fault rfl rfl, h.walk, h.refill, ⟨0, by decide, rfl⟩, rfl⟩
      | some w =>
        have hwt : w.type < 4 := by
          cases walk with
          | none =>
            simp only [Tlb.ownWalk, Option.some.injEq] at ho
            subst ho
            exact hq
          | some w0 =>
            simp only [Tlb.ownWalk] at ho
            split at ho
            · cases ho
            · cases ho; exact (hw w rfl).1
        simp only [Option.map_some]
        have hs : (KWalk.of (some w)).sent = w.sent := rfl
        simp only [hs, h.view.ready, h.view.valid]
        cases hsent : w.sent
        · simp only [Bool.not_false, if_true]
          cases hrd : v.ready
          · simp only [Bool.not_false, if_true]
            exact ⟨by first | exact answer_retry rfl rfl | exact answer_fault rfl rfl, rfl, h.refill, ⟨0, by decide, rfl⟩, rfl⟩
          · simp only [Bool.not_true, Bool.false_eq_true, if_false]
            exact ⟨by first | exact answer_retry rfl rfl | exact answer_fault rfl rfl, rfl, h.refill, ⟨w.type, hwt, rfl⟩, rfl⟩
        · simp only [Bool.not_true, Bool.false_eq_true, if_false, Bool.true_eq_false]
          cases hv : v.resp with
          | none =>
            simp only [Option.isSome_none, Bool.not_false, if_true]
            exact ⟨by first | exact answer_retry rfl rfl | exact answer_fault rfl rfl, rfl, h.refill, ⟨0, by decide, rfl⟩, rfl⟩
          | some r =>
            simp only [Option.isSome_some, Bool.not_true, Bool.false_eq_true, if_false]
            exact coreEnd_rel h hq hc hc' hr hv w

end Verif.TlbKernel

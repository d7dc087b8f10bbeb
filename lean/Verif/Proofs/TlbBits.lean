import Verif.Model.TlbKernel

/-
Reading back what was written: the round trips of the bit-packed TLB interface.
-/
namespace Verif.TlbKernel

/-! ### The width of a slot -/

theorem slotLoop_lt : ∀ fuel v, v ≤ fuel → v < 2 ^ slotLoop fuel v := by
  intro fuel
  induction fuel with
  | zero => intro v h; have : v = 0 := by omega
            subst this; simp [slotLoop]
  | succ n ih =>
    intro v h
    simp only [slotLoop]
    by_cases hv : v > 0
    · rw [if_pos hv]
      have := ih (v / 2) (by omega)
      rw [Nat.pow_succ]
      omega
    · rw [if_neg hv]; simp; omega

theorem slotLoop_le : ∀ fuel v k, k < slotLoop fuel v → 2 ^ k ≤ v := by
  intro fuel
  induction fuel with
  | zero => intro v k h; simp [slotLoop] at h
  | succ n ih =>
    intro v k h
    simp only [slotLoop] at h
    by_cases hv : v > 0
    · rw [if_pos hv] at h
      cases k with
      | zero => simp; omega
      | succ k =>
        have := ih (v / 2) k (by omega)
        rw [Nat.pow_succ]
        omega
    · rw [if_neg hv] at h; omega

theorem clogLoop_ge (n : Nat) : ∀ fuel res, n ≤ 2 ^ (res + fuel) → n ≤ 2 ^ clogLoop n fuel res := by
  intro fuel
  induction fuel with
  | zero => intro res h; simpa [clogLoop] using h
  | succ f ih =>
    intro res h
    simp only [clogLoop]
    by_cases hv : n > 2 ^ res
    · rw [if_pos hv]
      apply ih
      rw [show res + 1 + f = res + (f + 1) by omega]
      exact h
    · rw [if_neg hv]; omega

theorem clogLoop_lt (n : Nat) : ∀ fuel res k, res ≤ k → k < clogLoop n fuel res → 2 ^ k < n := by
  intro fuel
  induction fuel with
  | zero => intro res k h h'; simp only [clogLoop] at h'; omega
  | succ f ih =>
    intro res k h h'
    simp only [clogLoop] at h'
    by_cases hv : n > 2 ^ res
    · rw [if_pos hv] at h'
      by_cases hk : k = res
      · subst hk; exact hv
      · exact ih (res + 1) k (by omega) h'
    · rw [if_neg hv] at h'; omega

theorem slotWidth_fits (n k : Nat) (h : k < n) : k < 2 ^ slotWidth n := by
  unfold slotWidth
  rw [if_pos (by omega : n > 0)]
  have := slotLoop_lt n (n - 1) (by omega)
  omega

theorem slotWidth_eq (n : Nat) : slotWidthOf n = slotWidth n := by
  unfold slotWidthOf
  by_cases h1 : n ≤ 1
  · rw [if_pos h1]
    have : n = 0 ∨ n = 1 := by omega
    rcases this with rfl | rfl <;> rfl
  · rw [if_neg h1]
    have hs : n ≤ 2 ^ slotWidth n := by
      have := slotWidth_fits n (n - 1) (by omega)
      omega
    have hc : n ≤ 2 ^ clogLoop n n 0 := clogLoop_ge n n 0 (by rw [Nat.zero_add]; exact Nat.le_of_lt Nat.lt_two_pow_self)
    rcases Nat.lt_trichotomy (clogLoop n n 0) (slotWidth n) with hlt | heq | hgt
    · exfalso
      unfold slotWidth at hlt
      rw [if_pos (by omega : n > 0)] at hlt
      have := slotLoop_le n (n - 1) _ hlt
      omega
    · exact heq
    · exfalso
      have := clogLoop_lt n n 0 (slotWidth n) (Nat.zero_le _) hgt
      omega

/-! ### Numbers -/

/-- The low `w` bits. -/
def trunc (w : Nat) (v : BitVec 32) : BitVec 32 := (v.setWidth w).setWidth 32

theorem trunc_getLsbD (w : Nat) (v : BitVec 32) (j : Nat) : (trunc w v).getLsbD j = (decide (j < w) && v.getLsbD j) := by
  simp only [trunc, BitVec.getLsbD_setWidth]
  by_cases h : j < 32
  · simp [h]
  · have : v.getLsbD j = false := BitVec.getLsbD_of_ge v j (by omega)
    simp [h, this]

theorem trunc_of_lt {w : Nat} {v : BitVec 32} (h : v.toNat < 2 ^ w) : trunc w v = v := by
  apply BitVec.eq_of_toNat_eq
  simp only [trunc, BitVec.toNat_setWidth]
  rw [Nat.mod_eq_of_lt h, Nat.mod_eq_of_lt v.isLt]

theorem trunc_32 (v : BitVec 32) : trunc 32 v = v := trunc_of_lt v.isLt

theorem getFrom_spec (x : BitVec 32) (r : Bits) : ∀ (n i : Nat) (v : BitVec 32),
    ∃ y, getFrom i n v ((List.range' i n).map x.getLsbD ++ r) = some (y, r) ∧
      ∀ j, j < 32 → y.getLsbD j = (v.getLsbD j || (decide (i ≤ j) && decide (j < i + n) && x.getLsbD j)) := by
  intro n
  induction n with
  | zero =>
    intro i v
    refine ⟨v, rfl, fun j _ => ?_⟩
    have : (decide (i ≤ j) && decide (j < i + 0)) = false := by
      simp only [Bool.and_eq_false_iff, decide_eq_false_iff_not]; omega
    rw [this, Bool.false_and, Bool.or_false]
  | succ n ih =>
    intro i v
    obtain ⟨y, hy, hb⟩ := ih (i + 1) (if x.getLsbD i then v ||| (1#32 <<< i) else v)
    refine ⟨y, ?_, fun j hj => ?_⟩
    · rw [List.range'_succ]
      simpa [getFrom] using hy
    · rw [hb j hj]
      by_cases hij : i = j
      · subst hij
        have h1 : decide (i + 1 ≤ i) = false := by simp
        cases hx : x.getLsbD i <;> simp [hj]
      · have h1 : ∀ b : Bool, (if b = true then v ||| (1#32 <<< i) else v).getLsbD j = v.getLsbD j := by
          intro b
          cases b
          · rfl
          · simp only [if_true, BitVec.getLsbD_or, BitVec.getLsbD_shiftLeft, BitVec.getLsbD_one]
            have : ((decide (j < 32) && !decide (j < i)) && (decide (0 < 32) && decide (j - i = 0))) = false := by
              simp only [Bool.and_eq_false_iff, Bool.not_eq_false', decide_eq_false_iff_not, decide_eq_true_eq]
              omega
            simp_all
        rw [h1]
        have : decide (i + 1 ≤ j) = decide (i ≤ j) := decide_eq_decide.mpr (by omega)
        rw [this, show i + 1 + n = i + (n + 1) by omega]

theorem getUint_put (v : BitVec 32) (w : Nat) (r : Bits) : getUint w (putUint v w ++ r) = some (trunc w v, r) := by
  obtain ⟨y, hy, hb⟩ := getFrom_spec v r w 0 0#32
  have : y = trunc w v := by
    apply BitVec.eq_of_getLsbD_eq
    intro j hj
    rw [hb j hj, trunc_getLsbD]
    simp
  subst this
  rw [getUint, putUint, List.range_eq_range']
  exact hy

/-! ### Records -/

theorem bind_run {g : Reader α} {f : α → Reader β} {bs r : Bits} {a : α} (h : g bs = some (a, r)) : (g >>= f) bs = f a r := by
  show (StateT.bind g f) bs = f a r
  simp [StateT.bind, h]

theorem pure_run (a : α) (bs : Bits) : (pure a : Reader α) bs = some (a, bs) := rfl

theorem bind_bit {f : Bool → Reader β} (b : Bool) (r : Bits) : (getBit >>= f) (putBit b ++ r) = f b r := bind_run rfl

theorem bind_uint {f : BitVec 32 → Reader β} (v : BitVec 32) (w : Nat) (r : Bits) :
    (getUint w >>= f) (putUint v w ++ r) = f (trunc w v) r := bind_run (getUint_put v w r)

def KEntry.trunc (e : KEntry) : KEntry :=
  { e with asid := TlbKernel.trunc 9 e.asid, vpn1 := TlbKernel.trunc 10 e.vpn1, vpn0 := TlbKernel.trunc 10 e.vpn0
           ppn := TlbKernel.trunc 22 e.ppn, perm := TlbKernel.trunc 8 e.perm }

theorem getEntry_put (e : KEntry) (r : Bits) : getEntry (putEntry e ++ r) = some (e.trunc, r) := by
  simp only [getEntry, putEntry, List.append_assoc, bind_bit, bind_uint, pure_run]
  rfl

theorem getLookup_put (l : KLookup) (r : Bits) : getLookup (putLookup l ++ r) = some ({ l with entry := l.entry.trunc }, r) := by
  simp only [getLookup, putLookup, List.append_assoc, bind_bit, bind_run (getEntry_put _ _), pure_run]

def KWalk.trunc (w : KWalk) : KWalk := { w with type := TlbKernel.trunc 2 w.type, eff := TlbKernel.trunc 2 w.eff }

theorem getWalk_put (w : KWalk) (r : Bits) : getWalk (putWalk w ++ r) = some (w.trunc, r) := by
  simp only [getWalk, putWalk, List.append_assoc, bind_bit, bind_uint, pure_run, trunc_32]
  rfl

def KRefill.trunc (sw : Nat) (f : KRefill) : KRefill :=
  { f with entry := f.entry.trunc, slot := TlbKernel.trunc sw f.slot, next := TlbKernel.trunc sw f.next }

theorem getRefill_put (sw : Nat) (f : KRefill) (r : Bits) : getRefill sw (putRefill sw f ++ r) = some (f.trunc sw, r) := by
  simp only [getRefill, putRefill, List.append_assoc, bind_bit, bind_uint, bind_run (getEntry_put _ _), pure_run]
  rfl

/-- What is left of a response's address and entry. -/
def KResp.trunc (p : KResp) : KResp :=
  { p with vaddr := TlbKernel.trunc 20 (p.vaddr >>> 12) <<< 12, pte := unpackPte (TlbKernel.trunc 30 (packPte p.pte)) }

def KView.trunc (v : KView) : KView := { v with resp := v.resp.trunc }

theorem getView_put (v : KView) (r : Bits) : getView (putView v ++ r) = some (v.trunc, r) := by
  simp only [getView, putView, List.append_assoc, bind_bit, bind_uint, pure_run]
  rfl

def KReq.trunc (q : KReq) : KReq := { q with type := TlbKernel.trunc 2 q.type }

theorem getReq_put (q : KReq) (r : Bits) : getReq (putReq q ++ r) = some (q.trunc, r) := by
  simp only [getReq, putReq, List.append_assoc, bind_bit, bind_uint, pure_run, trunc_32]
  rfl

def PortOut.trunc (p : PortOut) : PortOut :=
  { p with result := TlbKernel.trunc 2 p.result, reason := TlbKernel.trunc 3 p.reason, source := TlbKernel.trunc 3 p.source
           level := TlbKernel.trunc 8 p.level, perm := TlbKernel.trunc 8 p.perm }

theorem getPort_put (p : PortOut) (r : Bits) : getPort (putPort p ++ r) = some (p.trunc, r) := by
  simp only [getPort, putPort, List.append_assoc, bind_bit, bind_uint, pure_run, trunc_32]
  rfl

def PortIn.trunc (p : PortIn) : PortIn := { p with lookup := { p.lookup with entry := p.lookup.entry.trunc } }

theorem getPortIn_put (p : PortIn) (r : Bits) :
    getPortIn ((putBit p.valid ++ putUint p.vaddr 32 ++ putLookup p.lookup) ++ r) = some (p.trunc, r) := by
  simp only [getPortIn, List.append_assoc, bind_bit, bind_uint, bind_run (getLookup_put _ _), pure_run, trunc_32]
  rfl

theorem getMany_put {g : Reader α} {put : α → Bits} {tr : α → α} (h : ∀ a r, g (put a ++ r) = some (tr a, r)) :
    ∀ (l : List α) (r : Bits), getMany g l.length (l.flatMap put ++ r) = some (l.map tr, r) := by
  intro l
  induction l with
  | nil => intro r; rfl
  | cons a l ih =>
    intro r
    simp only [List.length_cons, getMany, List.flatMap_cons, List.append_assoc, bind_run (h _ _), bind_run (ih _), pure_run,
      List.map_cons]

def TopIn.trunc (sw : Nat) (i : TopIn) : TopIn :=
  { i with priv := TlbKernel.trunc 2 i.priv, mpp := TlbKernel.trunc 2 i.mpp, walk := i.walk.trunc, refill := i.refill.trunc sw
           repl := TlbKernel.trunc sw i.repl, view := i.view.trunc, ports := i.ports.map PortIn.trunc }

theorem getTopIn_put (sw : Nat) (i : TopIn) (r : Bits) :
    getTopIn sw i.ports.length (putTopIn sw i ++ r) = some (i.trunc sw, r) := by
  simp only [getTopIn, putTopIn, List.append_assoc, bind_bit, bind_uint, bind_run (getWalk_put _ _), bind_run (getRefill_put _ _ _),
    bind_run (getView_put _ _), trunc_32]
  have h := getMany_put (tr := PortIn.trunc) getPortIn_put i.ports r
  simp only [List.append_assoc] at h
  rw [bind_run h, pure_run]
  rfl

def TopOut.trunc (sw : Nat) (o : TopOut) : TopOut :=
  { o with walk := o.walk.trunc, refill := o.refill.trunc sw, req := o.req.trunc, ports := o.ports.map PortOut.trunc }

theorem getTopOut_put (sw : Nat) (o : TopOut) (r : Bits) :
    getTopOut sw o.ports.length (putTopOut sw o ++ r) = some (o.trunc sw, r) := by
  simp only [getTopOut, putTopOut, List.append_assoc, bind_bit, bind_run (getWalk_put _ _), bind_run (getRefill_put _ _ _),
    bind_run (getReq_put _ _)]
  rw [bind_run (getMany_put (tr := PortOut.trunc) getPort_put o.ports r), pure_run]
  rfl

theorem topLoop_length (cap : Nat) (d : Bool) (ldu : Nat) (i : TopIn) : ∀ (ps : List PortIn) (k : Nat) (a : Acc),
    (topLoop cap d ldu i k a ps).2.length = ps.length := by
  intro ps
  induction ps with
  | nil => intro k a; rfl
  | cons p ps ih => intro k a; simp [topLoop, ih]

theorem topComb_length (cap : Nat) (d : Bool) (ldu : Nat) (i : TopIn) : (topComb cap d ldu i).ports.length = i.ports.length := by
  unfold topComb
  split
  · simp
  · split
    · simp
    · exact topLoop_length ..

/-- The packed function is the translation on what is left of the inputs, seen through what is left of the outputs. -/
theorem runPacked_eq (cap : Nat) (d : Bool) (ldu : Nat) (i : TopIn) (hn : i.ports.length ≤ 16) :
    runPacked cap d ldu i.ports.length i = some ((topComb cap d ldu (i.trunc (slotWidth cap))).trunc (slotWidth cap)) := by
  have h1 := getTopIn_put (slotWidth cap) i []
  rw [List.append_nil] at h1
  have h2 := getTopOut_put (slotWidth cap) (topComb cap d ldu (i.trunc (slotWidth cap))) []
  rw [List.append_nil, topComb_length] at h2
  have hl : (i.trunc (slotWidth cap)).ports.length = i.ports.length := by simp [TopIn.trunc]
  rw [hl] at h2
  rw [runPacked, generator, if_neg (by omega)]
  simp only [slotWidth_eq, StateT.run, h1, Option.map_some, Option.bind_some, h2]

/-! ### The arrays are long enough -/

theorem putUint_length (v : BitVec 32) (w : Nat) : (putUint v w).length = w := by simp [putUint]

theorem putTopIn_length (cap : Nat) (i : TopIn) : (putTopIn (slotWidthOf cap) i).length = topPiWidth cap i.ports.length := by
  have hp : ∀ l : List PortIn,
      (l.flatMap (fun p => putBit p.valid ++ putUint p.vaddr 32 ++ putLookup p.lookup)).length = l.length * (1 + 32 + 63) := by
    intro l
    induction l with
    | nil => rfl
    | cons p l ih =>
      rw [List.flatMap_cons, List.length_append, ih]
      simp only [putLookup, putEntry, List.length_append, putUint_length, putBit, List.length_cons, List.length_nil]
      omega
  have hb : ∀ b, (putBit b).length = 1 := fun _ => rfl
  simp only [putTopIn, putWalk, putRefill, putView, putEntry, List.length_append, putUint_length, hb, hp, topPiWidth]
  omega

theorem putTopOut_length (cap : Nat) (o : TopOut) : (putTopOut (slotWidth cap) o).length = topPoWidth cap o.ports.length := by
  have hp : ∀ l : List PortOut, (l.flatMap putPort).length = l.length * (1 + 2 + 32 + 3 + 3 + 8 + 8) := by
    intro l
    induction l with
    | nil => rfl
    | cons p l ih =>
      rw [List.flatMap_cons, List.length_append, ih]
      simp only [putPort, List.length_append, putUint_length, putBit, List.length_cons, List.length_nil]
      omega
  simp only [putTopOut, putWalk, putRefill, putReq, putEntry, List.length_append, putUint_length, putBit, List.length_cons,
    List.length_nil, hp, topPoWidth, slotWidth_eq]
  omega

end Verif.TlbKernel

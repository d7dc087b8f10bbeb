import Verif.Proofs.ICacheRawCore
import Verif.Proofs.TlbBits

/-
Reading back what was written: the round trips of the instruction cache's bit-packed interface.
-/
namespace Verif.ICacheBits
open Verif.ICache
open Verif.TlbKernel

/-! ### Arrays -/

theorem poke_app (a b c : Bits) (n : Nat) (ha : a.length = n) (h : c.length ≤ b.length) :
    poke (a ++ b) n c = some (a ++ (c ++ b.drop c.length)) := by
  subst ha
  unfold poke
  rw [if_pos (by rw [List.length_append]; omega), List.take_left, List.append_assoc, List.drop_append]
  rw [show List.drop (a.length + c.length) a = [] from List.drop_eq_nil_of_le (by omega), Nat.add_sub_cancel_left, List.nil_append]

theorem poke_zero (b c : Bits) (h : c.length ≤ b.length) : poke b 0 c = some (c ++ b.drop c.length) :=
  poke_app [] b c 0 rfl h

theorem peek_app {g : Reader α} {a b r : Bits} {x : α} {n : Nat} (ha : a.length = n) (h : g b = some (x, r)) : peekAt (a ++ b) n g = some x := by
  subst ha
  unfold peekAt
  rw [List.drop_left, h]
  rfl

theorem peek_zero {g : Reader α} {b r : Bits} {x : α} (h : g b = some (x, r)) : peekAt b 0 g = some x := by
  unfold peekAt
  rw [List.drop_zero, h]
  rfl

theorem many_put {α β : Type} {g : Reader β} {put : α → Bits} {tr : α → β} (h : ∀ a r, g (put a ++ r) = some (tr a, r)) :
    ∀ (l : List α) (r : Bits), getMany g l.length (l.flatMap put ++ r) = some (l.map tr, r) := by
  intro l
  induction l with
  | nil => intro r; rfl
  | cons a l ih =>
    intro r
    simp only [List.length_cons, getMany, List.flatMap_cons, List.append_assoc, bind_run (h _ _), bind_run (ih _), pure_run,
      List.map_cons]

theorem getD_finRange {α : Type} {n : Nat} (f : Fin n → α) (d : α) : (fun j : Fin n => ((List.finRange n).map f).getD j.val d) = f := by
  funext j
  simp

theorem getWords_put {W : Nat} (f : Fin W → W32) (r : Bits) : getWords W (putWords f ++ r) = some (f, r) := by
  have h := many_put (g := getUint 32) (put := fun j : Fin W => putUint (f j) 32) (tr := f)
    (fun a r => by rw [getUint_put, trunc_32]) (List.finRange W) r
  rw [List.length_finRange] at h
  unfold getWords putWords
  rw [bind_run h, pure_run, getD_finRange]

theorem getBools_put {W : Nat} (f : Fin W → Bool) (r : Bits) : getBools W (putBools f ++ r) = some (f, r) := by
  have h := many_put (g := getBit) (put := fun j : Fin W => putBit (f j)) (tr := f) (fun a r => rfl) (List.finRange W) r
  rw [List.length_finRange] at h
  unfold getBools putBools
  rw [bind_run h, pure_run, getD_finRange]

theorem getLine_put (l : Line) (r : Bits) : getLine (putLine l ++ r) = some (l, r) := getWords_put l r
theorem getSet_put (f : Tx → Bool) (r : Bits) : getSet (putSet f ++ r) = some (f, r) := getBools_put f r

theorem bind_line {f : Line → Reader β} (l : Line) (r : Bits) : (getLine >>= f) (putLine l ++ r) = f l r := bind_run (getLine_put l r)
theorem bind_set {f : (Tx → Bool) → Reader β} (l : Tx → Bool) (r : Bits) : (getSet >>= f) (putSet l ++ r) = f l r :=
  bind_run (getSet_put l r)
theorem bind_words {W : Nat} {f : (Fin W → W32) → Reader β} (l : Fin W → W32) (r : Bits) :
    (getWords W >>= f) (putWords l ++ r) = f l r := bind_run (getWords_put l r)
theorem bind_bools {W : Nat} {f : (Fin W → Bool) → Reader β} (l : Fin W → Bool) (r : Bits) :
    (getBools W >>= f) (putBools l ++ r) = f l r := bind_run (getBools_put l r)

theorem flatMap_len {α : Type} {put : α → Bits} {n : Nat} (h : ∀ a, (put a).length = n) : ∀ l : List α, (l.flatMap put).length = l.length * n := by
  intro l
  induction l with
  | nil => simp
  | cons a l ih => rw [List.flatMap_cons, List.length_append, h, ih, List.length_cons, Nat.succ_mul, Nat.add_comm]

theorem putWords_length {W : Nat} (f : Fin W → W32) : (putWords f).length = W * 32 := by
  unfold putWords
  rw [flatMap_len (fun j => putUint_length (f j) 32), List.length_finRange]
theorem putBools_length {W : Nat} (f : Fin W → Bool) : (putBools f).length = W := by
  unfold putBools
  rw [flatMap_len (n := 1) (fun j => rfl), List.length_finRange, Nat.mul_one]
theorem putLine_length (l : Line) : (putLine l).length = 512 := by
  unfold putLine
  rw [flatMap_len (fun j => putUint_length (l j) 32), List.length_finRange]
theorem putSet_length (l : Tx → Bool) : (putSet l).length = 16 := by
  unfold putSet
  rw [flatMap_len (n := 1) (fun j => rfl), List.length_finRange]
theorem putBit_length (b : Bool) : (putBit b).length = 1 := rfl

theorem kWay_eq : kWay = 3 := by decide +kernel
theorem kWord_eq : kWord = 4 := by decide +kernel
theorem kMeta_eq : kMeta = 9 := by decide +kernel
theorem kRegs_eq : kRegs = 1163 := by decide +kernel
theorem kIn_eq : kIn = 615 := by decide +kernel
theorem kLook_eq : kLook = 525 := by decide +kernel
theorem kOut_eq : kOut = 645 := by decide +kernel
theorem kTw_eq : kTw = 544 := by decide +kernel
theorem kPi_eq : kPi = 2303 := by decide +kernel
theorem kPo_eq : kPo = 2352 := by decide +kernel

theorem putRegs_length (r : RRegs) : (putRegs r).length = kRegs := by
  rw [kRegs_eq]
  unfold putRegs
  simp only [List.length_append, putBit_length, putUint_length, putLine_length, putSet_length]
  rw [kWay_eq, kWord_eq]
  simp only [kPc, kTag]
theorem putIn_length (a : Bool) (i : RIn) : (putIn a i).length = kIn := by
  simp only [putIn, List.length_append, putBit_length, putUint_length, putLine_length, kIn_eq, kPc, kTag]
theorem putOut_length (o : ROut) : (putOut o).length = kOut := by
  simp only [putOut, List.length_append, putBit_length, putUint_length, putLine_length, kOut_eq, kPc, kTag, kLineAddr, kIdx, kWay_eq]
theorem putTw_length (t : RTw) : (putTw t).length = kTw := by
  simp only [putTw, List.length_append, putBit_length, putUint_length, putLine_length, kTw_eq, kTag, kIdx, kWay_eq]
theorem putMeta_length (m : RMeta) : (putMeta m).length = kMeta := by
  simp only [putMeta, List.length_append, putBit_length, putUint_length, kMeta_eq, kWay_eq]
theorem putRawMeta_length (c : Bool) (t : W32) (l : RLook) : (putRawMeta c t l).length = kMetaPi := by
  simp only [putRawMeta, List.length_append, putBit_length, putUint_length]
  rw [flatMap_len (n := 21) (fun w => by rw [List.length_append, putBit_length, putUint_length]; rfl)]
  decide

/-! ### Records -/

def RRegs.tr (r : RRegs) : RRegs :=
  { r with reqIdx := idxR r.reqPc, st := trunc 3 r.st, repl := trunc kWay r.repl, ppn := trunc kTag r.ppn, tx := trunc 4 r.tx
           pWord := trunc kWord r.pWord, lookIdx := idxR r.lookPc }

theorem getRegs_put (r : RRegs) (b : Bits) : getRegs (putRegs r ++ b) = some (r.tr, b) := by
  unfold getRegs putRegs
  simp only [List.append_assoc, bind_bit, bind_uint, bind_line, bind_set, pure_run]
  unfold RRegs.tr
  simp only [kPc, trunc_32]

def RIn.tr (i : RIn) : RIn := { i with ppn := trunc kTag i.ppn, mAccId := trunc 4 i.mAccId, mRespId := trunc 4 i.mRespId }

theorem getIn_put (a : Bool) (i : RIn) (b : Bits) : getIn (putIn a i ++ b) = some ((a, i.tr), b) := by
  simp only [getIn, putIn, List.append_assoc, bind_bit, bind_uint, bind_line, pure_run, kPc, trunc_32]
  rfl

def ROut.tr (o : ROut) : ROut :=
  { o with mmuVtag := trunc kTag o.mmuVtag, memAddr := trunc kLineAddr (o.memAddr >>> 6) <<< 6, memId := trunc 4 o.memId
           dataIdx := trunc kIdx o.dataIdx, dataWay := trunc kWay o.dataWay }

theorem getOut_put (o : ROut) (b : Bits) : getOut (putOut o ++ b) = some (o.tr, b) := by
  simp only [getOut, putOut, List.append_assoc, bind_bit, bind_uint, bind_line, pure_run, kPc, trunc_32]
  rfl

def RTw.tr (t : RTw) : RTw := { t with idx := trunc kIdx t.idx, way := trunc kWay t.way, tag := trunc kTag t.tag }

theorem getTw_put (t : RTw) (b : Bits) : getTw (putTw t ++ b) = some (t.tr, b) := by
  simp only [getTw, putTw, List.append_assoc, bind_bit, bind_uint, bind_line, pure_run]
  rfl

theorem getRawMeta_put (c : Bool) (t : W32) (l : RLook) (b : Bits) : getRawMeta (putRawMeta c t l ++ b) =
    some ({ cmp := c, cmpTag := trunc kTag t, respV := l.metaV, tag := fun w => trunc kTag (l.tag w), val := l.val }, b) := by
  have h := many_put (g := do let t ← getUint kTag; let v ← getBit; return (t, v)) (put := fun w : Fin 8 => putUint (l.tag w) kTag ++ putBit (l.val w))
    (tr := fun w => (trunc kTag (l.tag w), l.val w))
    (fun a r => by simp only [List.append_assoc, bind_bit, bind_uint, pure_run]) (List.finRange 8) b
  rw [List.length_finRange] at h
  unfold getRawMeta putRawMeta
  simp only [List.append_assoc, bind_bit, bind_uint]
  rw [bind_run h, pure_run]
  simp

def RMeta.tr (m : RMeta) : RMeta := { m with hitWay := trunc kWay m.hitWay, firstInv := trunc kWay m.firstInv }

/-- What the tag compare sees. -/
def rawMeta (r : RRegs) (i : RIn) (l : RLook) : RawMeta :=
  { cmp := (metaCtx r i).1, cmpTag := trunc kTag (metaCtx r i).2, respV := l.metaV, tag := fun w => trunc kTag (l.tag w), val := l.val }

/-- What the module sees of a look-up. -/
def seenMeta (r : RRegs) (i : RIn) (l : RLook) : RMeta := (packMeta (rawMeta r i l)).tr

theorem putLook_eq (r : RRegs) (i : RIn) (l : RLook) : putLook r i l =
    some (putMeta (packMeta (rawMeta r i l)) ++ putBit l.dataV ++ putUint l.dataWay kWay ++ putLine l.dataLine) := by
  unfold putLook metaGen
  rw [poke_zero _ _ (by rw [putRawMeta_length, List.length_replicate]; exact Nat.le_refl _)]
  simp only [Option.bind_eq_bind, Option.bind_some]
  have hp : peekAt (putRawMeta (metaCtx r i).1 (metaCtx r i).2 l ++
      List.drop (putRawMeta (metaCtx r i).1 (metaCtx r i).2 l).length (List.replicate kMetaPi false)) 0 getRawMeta = some (rawMeta r i l) :=
    peek_zero (getRawMeta_put _ _ _ _)
  rw [hp]
  simp only [Option.bind_some]
  rw [poke_zero _ _ (by rw [putMeta_length, List.length_replicate]; exact Nat.le_refl _)]
  simp only [Option.bind_some]
  rw [if_neg (by rw [List.length_append, putMeta_length]; omega)]
  rw [List.take_append_of_le_length (by rw [putMeta_length]; exact Nat.le_refl _), List.take_of_length_le (by rw [putMeta_length]; exact Nat.le_refl _)]
  rfl

theorem getLook_put (m : RMeta) (v : Bool) (w : W32) (d : Line) (b : Bits) :
    getLook (putMeta m ++ putBit v ++ putUint w kWay ++ putLine d ++ b) =
      some ((m.tr, { metaV := m.respV, dataV := v, dataWay := trunc kWay w, dataLine := d }), b) := by
  simp only [getLook, putMeta, List.append_assoc, bind_bit, bind_uint, bind_line, pure_run]
  rfl

/-- The module called through its packed interface is `comb_core` on what the interface lets through. -/
theorem packed_eq (allow : Bool) (r : RRegs) (i : RIn) (l : RLook) : packedComb allow r i l =
    (coreR allow r.tr i.tr (seenMeta r i l) { metaV := (seenMeta r i l).respV, dataV := l.dataV, dataWay := trunc kWay l.dataWay, dataLine := l.dataLine }).map
      fun x => (x.1.tr, x.2.1.tr, x.2.2.tr) := by
  unfold packedComb
  rw [poke_zero _ _ (by simp only [putRegs_length, List.length_replicate, kRegs_eq, kPi_eq, kPo_eq]; omega)]
  simp only [Option.bind_eq_bind, Option.bind_some]
  rw [poke_app _ _ _ kRegs (putRegs_length r) (by simp only [putRegs_length, putIn_length, List.length_drop, List.length_replicate, kRegs_eq, kPi_eq, kIn_eq]; omega)]
  simp only [Option.bind_some]
  rw [putLook_eq]
  simp only [Option.bind_some]
  rw [← List.append_assoc, poke_app _ _ _ (kRegs + kIn) (by rw [List.length_append, putRegs_length, putIn_length])
    (by simp only [List.length_append, putMeta_length, putBit_length, putUint_length, putLine_length, List.length_drop, List.length_replicate, putRegs_length, putIn_length, kRegs_eq, kPi_eq, kIn_eq, kMeta_eq, kWay_eq]; omega)]
  simp only [Option.bind_some]
  unfold compactGen
  rw [show ∀ x, peekAt (putRegs r ++ putIn allow i ++ x) 0 getRegs = some r.tr from fun x => by
    rw [List.append_assoc]; exact peek_zero (getRegs_put r _)]
  simp only [Option.bind_eq_bind, Option.bind_some]
  rw [show ∀ x, peekAt (putRegs r ++ putIn allow i ++ x) kRegs getIn = some (allow, i.tr) from fun x => by
    rw [List.append_assoc]; exact peek_app (putRegs_length r) (getIn_put allow i _)]
  simp only [Option.bind_some]
  rw [peek_app (x := (seenMeta r i l, { metaV := (seenMeta r i l).respV, dataV := l.dataV, dataWay := trunc kWay l.dataWay, dataLine := l.dataLine }))
    (by rw [List.length_append, putRegs_length, putIn_length]) (getLook_put _ _ _ _ _)]
  simp only [Option.bind_some]
  cases coreR allow r.tr i.tr (seenMeta r i l) { metaV := (seenMeta r i l).respV, dataV := l.dataV, dataWay := trunc kWay l.dataWay, dataLine := l.dataLine } with
  | none => rfl
  | some x =>
    obtain ⟨q, o, tw⟩ := x
    simp only [Option.bind_some, Option.map_some]
    rw [poke_zero _ _ (by simp only [putRegs_length, List.length_replicate, kRegs_eq, kPi_eq, kPo_eq]; omega)]
    simp only [Option.bind_some]
    rw [poke_app _ _ _ kRegs (putRegs_length q) (by simp only [putRegs_length, putOut_length, List.length_drop, List.length_replicate, kRegs_eq, kPo_eq, kOut_eq]; omega)]
    simp only [Option.bind_some]
    rw [← List.append_assoc, poke_app _ _ _ (kRegs + kOut) (by rw [List.length_append, putRegs_length, putOut_length])
      (by simp only [List.length_drop, List.length_replicate, putRegs_length, putOut_length, putTw_length, kRegs_eq, kPo_eq, kOut_eq, kTw_eq]; omega)]
    simp only [Option.bind_some]
    rw [show ∀ x, peekAt (putRegs q ++ putOut o ++ x) 0 getRegs = some q.tr from fun x => by
      rw [List.append_assoc]; exact peek_zero (getRegs_put q _)]
    simp only [Option.bind_some]
    rw [show ∀ x, peekAt (putRegs q ++ putOut o ++ x) kRegs getOut = some o.tr from fun x => by
      rw [List.append_assoc]; exact peek_app (putRegs_length q) (getOut_put o _)]
    simp only [Option.bind_some]
    rw [peek_app (by rw [List.length_append, putRegs_length, putOut_length]) (getTw_put tw _)]
    rfl

end Verif.ICacheBits

import Verif.Spec.RobQueue
import Verif.Proofs.Ring
/- Invariant of the reorder buffer. -/
namespace Verif.Proofs.Rob
open Verif.Ring Verif.Rob Verif.RobQueue

structure RInv (B L : Nat) (s : State) (W : List Row) : Prop where
  deqLt : s.deq < L
  len : W.length ≤ L
  enqEq : s.enq = (s.deq + W.length) % L
  flag : s.ef = (s.df ^^ decide (L ≤ s.deq + W.length))
  win : ring L s.rows s.deq W.length = W
  out : ∀ k, W.length ≤ k → k < L → ∀ o ∈ s.rows ((s.deq + k) % L), o = none
  rowLen : ∀ l, (s.rows l).length = B
  ne : ∀ r ∈ W, ∃ u, some u ∈ r
  loc : ∀ k, k < W.length → ∀ b u, (s.rows ((s.deq + k) % L))[b]? = some (some u) →
    u.robIdx = ((s.deq + k) % L) * B + b ∧ u.robFlag = (s.df ^^ decide (L ≤ s.deq + k))

variable {B L : Nat}

theorem upd_self {α : Type} (f : Nat → α) (i : Nat) : upd f i (f i) = f := by
  funext j; rw [upd]; split
  · rename_i h; rw [h]
  · rfl

def content (W : List Row) : List Uop := W.flatten.filterMap id

theorem content_cons (r W) : content (r :: W) = r.filterMap id ++ content W := by
  simp [content]
theorem content_append (V W) : content (V ++ W) = content V ++ content W := by
  simp [content]

theorem rinv_empty {s W} (h : RInv B L s W) : isEmpty s = true ↔ W = [] := by
  have hL := h.deqLt
  have hlen := h.len
  simp only [isEmpty, Bool.and_eq_true, beq_iff_eq, h.enqEq, h.flag]
  constructor
  · rintro ⟨h1, h2⟩
    have hlt : s.deq + W.length < L := by
      cases hd : decide (L ≤ s.deq + W.length) with
      | false => simpa using hd
      | true => rw [hd] at h2; cases hdf : s.df <;> simp [hdf] at h2
    rw [Nat.mod_eq_of_lt hlt] at h1
    exact List.length_eq_zero_iff.1 (by omega)
  · rintro rfl
    have : ¬ L ≤ s.deq := by omega
    simp [Nat.mod_eq_of_lt hL, this]

theorem rinv_full {s W} (h : RInv B L s W) : isFull s = true ↔ W.length = L := by
  have hL := h.deqLt
  have hlen := h.len
  simp only [isFull, Bool.and_eq_true, beq_iff_eq, bne_iff_ne, h.enqEq, h.flag]
  constructor
  · rintro ⟨h1, h2⟩
    have hge : L ≤ s.deq + W.length := by
      cases hd : decide (L ≤ s.deq + W.length) with
      | true => simpa using hd
      | false => rw [hd] at h2; cases hdf : s.df <;> simp [hdf] at h2
    rw [Nat.mod_eq_sub_mod hge, Nat.mod_eq_of_lt (by omega)] at h1
    omega
  · intro hl
    have : L ≤ s.deq + W.length := by omega
    rw [hl, Nat.add_mod_right, Nat.mod_eq_of_lt hL]
    refine ⟨rfl, ?_⟩
    have : L ≤ s.deq + L := by omega
    cases hdf : s.df <;> simp [this]

theorem rinv_occ {s W} (h : RInv B L s W) : occ L s = W.length := by
  rw [occ]
  by_cases h1 : isEmpty s = true
  · rw [if_pos h1, (rinv_empty h).1 h1]; rfl
  · rw [if_neg h1]
    by_cases h2 : isFull s = true
    · rw [if_pos h2]; exact ((rinv_full h).1 h2).symm
    · rw [if_neg h2, h.enqEq]
      have : W.length ≠ L := fun h' => h2 ((rinv_full h).2 h')
      exact ringDist_add h.deqLt (by have := h.len; omega)

theorem rinv_insts {s W} (h : RInv B L s W) : insts L s = content W := by
  rw [insts, rinv_occ h, h.win]; rfl

/-! ### The head line -/

theorem firstValid_none : ∀ {row : Row}, firstValid row = none ↔ ∀ o ∈ row, o = none
  | [] => by simp [firstValid]
  | some u :: r => by simp [firstValid]
  | none :: r => by
    rw [firstValid, Option.map_eq_none_iff, firstValid_none]; simp

theorem firstValid_some : ∀ {row : Row} {k u}, firstValid row = some (k, u) →
    row[k]? = some (some u) ∧ row.filterMap id = u :: (row.set k none).filterMap id
  | some v :: r, k, u, h => by
    simp only [firstValid, Option.some.injEq, Prod.mk.injEq] at h
    obtain ⟨rfl, rfl⟩ := h
    simp
  | none :: r, k, u, h => by
    simp only [firstValid, Option.map_eq_some_iff, Prod.mk.injEq] at h
    obtain ⟨⟨k', u'⟩, h1, h2, h3⟩ := h
    obtain ⟨e1, e2⟩ := firstValid_some h1
    simp only at h2 h3
    subst h2; subst h3
    simpa using ⟨e1, e2⟩

/-- What the arbitration can decide. -/
theorem arbitrate_cases (row : Row) (empty mispred fs ir sp : Bool) :
    (arbitrate row empty mispred fs ir sp = .nothing) ∨
    (arbitrate row empty mispred fs ir sp = .group ∧ empty = false ∧ mispred = false ∧ row.all (fun o => o.all complete) = true ∧
      (∀ u, some u ∈ row → isFlush u = false ∧ ir = false)) ∨
    (∃ k u int, arbitrate row empty mispred fs ir sp = .single k int ∧ firstValid row = some (k, u) ∧
      mispred = false ∧ (int = ir) ∧ (int = false → complete u = true)) := by
  unfold arbitrate
  cases mispred with
  | true => simp
  | false =>
    simp only [Bool.not_false, Bool.and_true, Bool.false_eq_true, if_false]
    cases hf : firstValid row with
    | none =>
      have hn := firstValid_none.1 hf
      simp only
      split
      · rename_i hc
        simp only [Bool.and_eq_true, Bool.not_eq_true'] at hc
        right; left
        refine ⟨rfl, hc.1.1, trivial, hc.2, fun u hu => ?_⟩
        have := hn _ hu; cases this
      · left; rfl
    | some p =>
      obtain ⟨k, u⟩ := p
      simp only
      have hmem : some u ∈ row := by
        obtain ⟨e1, _⟩ := firstValid_some hf
        exact List.mem_of_getElem? e1
      split
      · rename_i hs
        right; right
        refine ⟨k, u, _, rfl, rfl, trivial, ?_, ?_⟩
        · cases ir with
          | false => simp
          | true => simpa using hs
        · intro hi
          cases ir with
          | false =>
            cases hcu : complete u with
            | true => rfl
            | false => simp [hcu] at hs
          | true => simp at hi; exact absurd hmem (by simp [hi])
      · rename_i hs
        split
        · rename_i hc
          simp only [Bool.and_eq_true, Bool.not_eq_true'] at hc
          right; left
          refine ⟨rfl, hc.1.1.1, trivial, hc.1.2, fun v hv => ?_⟩
          have hcu : complete u = true := by
            have := List.all_eq_true.1 hc.1.2 _ hmem; simpa using this
          simp only [Bool.or_eq_true, not_or, hcu] at hs
          have h1 := hs.1
          cases hir : ir with
          | false =>
            simp only [hir, Bool.or_false, Bool.not_false, Bool.true_and, Bool.not_true, Bool.and_false] at h1 hc
            have hg : (isFence u && sp) = false := by simpa using hc.2
            simp only [hg, Bool.not_false, Bool.and_true] at h1
            have h2 : row.any (fun o => o.any fun u => isFlush u || isFence u || isWfi u) = false := by
              simpa using h1
            have := List.any_eq_false.1 h2 _ hv
            simp only [Option.any_some, Bool.or_eq_true, not_or] at this
            exact ⟨by simpa using this.1.1, rfl⟩
          | true =>
            exfalso; apply h1
            simp only [hir, Bool.or_true, Bool.not_true, Bool.false_and, Bool.not_false, Bool.and_true]
            exact List.any_eq_true.2 ⟨_, hmem, rfl⟩
        · left; rfl

/-! ### Commit -/

/-- Replacing the head line by one with fewer valid slots. -/
theorem rinv_head {s row W} (h : RInv B L s (row :: W)) {row' : Row}
    (hlen : row'.length = row.length)
    (hsub : ∀ (b : Nat) (u : Uop), row'[b]? = some (some u) → row[b]? = some (some u)) (hne : ∃ u, some u ∈ row') :
    RInv B L { s with rows := upd s.rows s.deq row' } (row' :: W) := by
  have hrow : s.rows s.deq = row := by
    have := h.win; rw [List.length_cons, ring, List.cons.injEq] at this; exact this.1
  have hwin := h.win
  rw [List.length_cons, ring, List.cons.injEq] at hwin
  have hL := h.deqLt
  have hlenW := h.len; simp only [List.length_cons] at hlenW
  refine ⟨h.deqLt, h.len, h.enqEq, h.flag, ?_, ?_, ?_, ?_, ?_⟩
  · show ring L (upd s.rows s.deq row') s.deq (W.length + 1) = _
    rw [ring, upd_same]
    congr 1
    rw [ring_upd L s.rows row' _ _ _ (inc_lt (by omega)) hL]
    · exact hwin.2
    · intro k hk
      rw [inc_add]
      intro h'
      have : (s.deq + (k + 1)) % L = (s.deq + 0) % L := by rw [h', Nat.add_zero, Nat.mod_eq_of_lt hL]
      have := mod_inj hL (by omega) (by omega) this
      omega
  · intro k hk hkL o ho
    simp only [List.length_cons] at hk
    have hne : (s.deq + k) % L ≠ s.deq := by
      intro h'
      have : (s.deq + k) % L = (s.deq + 0) % L := by rw [h', Nat.add_zero, Nat.mod_eq_of_lt hL]
      have := mod_inj hL hkL (by omega) this
      omega
    change o ∈ upd s.rows s.deq row' ((s.deq + k) % L) at ho
    rw [upd_ne _ _ hne] at ho
    exact h.out k (by simpa using hk) hkL o ho
  · intro l
    show (upd s.rows s.deq row' l).length = B
    by_cases hl : l = s.deq
    · rw [hl, upd_same, hlen, ← hrow]; exact h.rowLen _
    · rw [upd_ne _ _ hl]; exact h.rowLen l
  · intro r hr
    rcases List.mem_cons.1 hr with rfl | hr
    · exact hne
    · exact h.ne r (List.mem_cons_of_mem _ hr)
  · intro k hk b u hu
    refine h.loc k hk b u ?_
    change (upd s.rows s.deq row' ((s.deq + k) % L))[b]? = some (some u) at hu
    by_cases hl : (s.deq + k) % L = s.deq
    · rw [hl, upd_same] at hu; rw [hl, hrow]; exact hsub b u hu
    · rw [upd_ne _ _ hl] at hu; exact hu

theorem flag_shift {deq k : Nat} (df : Bool) (hd : deq < L) (hk : k < L) :
    ((if inc L deq = 0 then !df else df) ^^ decide (L ≤ inc L deq + k)) = (df ^^ decide (L ≤ deq + (k + 1))) := by
  by_cases he : deq + 1 = L
  · have hi : inc L deq = 0 := by rw [inc, he, Nat.mod_self]
    have h1 : ¬ L ≤ 0 + k := by omega
    have h2 : L ≤ deq + (k + 1) := by omega
    rw [hi, if_pos rfl, decide_eq_false h1, decide_eq_true h2]
    simp
  · have hi : inc L deq = deq + 1 := by rw [inc]; exact Nat.mod_eq_of_lt (by omega)
    rw [hi, if_neg (by omega), show deq + 1 + k = deq + (k + 1) by omega]

/-- Dropping the head line, now empty. -/
theorem rinv_pop {s row W} (h : RInv B L s (row :: W)) {row' : Row}
    (hlen : row'.length = row.length) (hnone : ∀ o ∈ row', o = none) :
    RInv B L { s with rows := upd s.rows s.deq row', deq := inc L s.deq
                      df := if inc L s.deq = 0 then !s.df else s.df } W := by
  have hrow : s.rows s.deq = row := by
    have := h.win; rw [List.length_cons, ring, List.cons.injEq] at this; exact this.1
  have hwin := h.win
  rw [List.length_cons, ring, List.cons.injEq] at hwin
  have hL := h.deqLt
  have hlenW := h.len; simp only [List.length_cons] at hlenW
  have hP : 0 < L := by omega
  have hposne : ∀ k, 0 < k → k < L → (s.deq + k) % L ≠ s.deq := by
    intro k h0 hkL h'
    have : (s.deq + k) % L = (s.deq + 0) % L := by rw [h', Nat.add_zero, Nat.mod_eq_of_lt hL]
    have := mod_inj hL hkL (by omega) this
    omega
  refine ⟨inc_lt hP, by omega, ?_, ?_, ?_, ?_, ?_, ?_, ?_⟩
  · show s.enq = (inc L s.deq + W.length) % L
    rw [inc_add, h.enqEq]; rfl
  · show s.ef = _
    rw [h.flag]; exact (flag_shift s.df hL (by omega)).symm
  · show ring L (upd s.rows s.deq row') (inc L s.deq) W.length = W
    rw [ring_upd L s.rows row' _ _ _ (inc_lt hP) hL]
    · exact hwin.2
    · intro k hk
      rw [inc_add]; exact hposne _ (by omega) (by omega)
  · intro k hk hkL o ho
    change o ∈ (upd s.rows s.deq row') ((inc L s.deq + k) % L) at ho
    rw [inc_add] at ho
    by_cases he : k + 1 = L
    · rw [he, Nat.add_mod_right, Nat.mod_eq_of_lt hL, upd_same] at ho
      exact hnone o ho
    · rw [upd_ne _ _ (hposne _ (by omega) (by omega))] at ho
      exact h.out (k + 1) (by simp; omega) (by omega) o ho
  · intro l
    show (upd s.rows s.deq row' l).length = B
    by_cases hl : l = s.deq
    · rw [hl, upd_same, hlen, ← hrow]; exact h.rowLen _
    · rw [upd_ne _ _ hl]; exact h.rowLen l
  · intro r hr; exact h.ne r (List.mem_cons_of_mem _ hr)
  · intro k hk b u hu
    change (upd s.rows s.deq row' ((inc L s.deq + k) % L))[b]? = some (some u) at hu
    show u.robIdx = ((inc L s.deq + k) % L) * B + b ∧
      u.robFlag = ((if inc L s.deq = 0 then !s.df else s.df) ^^ decide (L ≤ inc L s.deq + k))
    rw [inc_add] at hu ⊢
    rw [upd_ne _ _ (hposne _ (by omega) (by omega))] at hu
    rw [flag_shift s.df hL (by omega)]
    exact h.loc (k + 1) (by simp; omega) b u hu

theorem filterMap_none {row : Row} (h : ∀ o ∈ row, o = none) : row.filterMap id = [] := by
  rw [List.filterMap_eq_nil_iff]; intro o ho; exact h o ho

theorem rinv_commit {s W} (h : RInv B L s W) (mispred fs ir sp : Bool) :
    ∃ W', RInv B L (doCommit L s (arbitrate (s.rows s.deq) (isEmpty s) mispred fs ir sp)) W' ∧
      content W = commits (s.rows s.deq) (arbitrate (s.rows s.deq) (isEmpty s) mispred fs ir sp) ++ content W' ∧
      (mispred = true → arbitrate (s.rows s.deq) (isEmpty s) mispred fs ir sp = .nothing) ∧
      (doCommit L s (arbitrate (s.rows s.deq) (isEmpty s) mispred fs ir sp)).enq = s.enq ∧
      (doCommit L s (arbitrate (s.rows s.deq) (isEmpty s) mispred fs ir sp)).ef = s.ef ∧
      W'.length ≤ W.length ∧ (W = [] → arbitrate (s.rows s.deq) (isEmpty s) mispred fs ir sp = .nothing) := by
  have hnothing : ∀ d, d = Decision.nothing → doCommit L s d = s ∧ commits (s.rows s.deq) d = [] := by
    rintro d rfl
    refine ⟨?_, rfl⟩
    simp only [doCommit, clearRow, advances, Bool.false_eq_true, if_false, upd_self]
  have hL := h.deqLt
  have henq : ∀ d, (doCommit L s d).enq = s.enq ∧ (doCommit L s d).ef = s.ef := by
    intro d; simp only [doCommit]; split <;> exact ⟨rfl, rfl⟩
  cases W with
  | nil =>
    have he : isEmpty s = true := (rinv_empty h).2 rfl
    have hrow : ∀ o ∈ s.rows s.deq, o = none := by
      have := h.out 0 (by simp) (by omega)
      rwa [Nat.add_zero, Nat.mod_eq_of_lt hL] at this
    have hd : arbitrate (s.rows s.deq) (isEmpty s) mispred fs ir sp = .nothing := by
      rcases arbitrate_cases (s.rows s.deq) (isEmpty s) mispred fs ir sp with h1 | h1 | ⟨k, u, int, h1, h2, _⟩
      · exact h1
      · rw [he] at h1; simp at h1
      · rw [firstValid_none.2 hrow] at h2; cases h2
    refine ⟨[], ?_, ?_, fun _ => hd, (henq _).1, (henq _).2, by simp, fun _ => hd⟩
    · rw [(hnothing _ hd).1]; exact h
    · rw [(hnothing _ hd).2]; rfl
  | cons row W =>
    have hrow : s.rows s.deq = row := by
      have := h.win; rw [List.length_cons, ring, List.cons.injEq] at this; exact this.1
    rcases arbitrate_cases (s.rows s.deq) (isEmpty s) mispred fs ir sp with h1 | h1 | ⟨k, u, int, h1, h2, h3, _⟩
    · refine ⟨row :: W, ?_, ?_, fun _ => h1, (henq _).1, (henq _).2, by simp, fun _ => h1⟩
      · rw [(hnothing _ h1).1]; exact h
      · rw [(hnothing _ h1).2]; rfl
    · refine ⟨W, ?_, ?_, fun hm => by (rw [h1.2.2.1] at hm; cases hm), (henq _).1, (henq _).2, by simp,
        fun hn => by cases hn⟩
      · rw [h1.1]
        have hall : (clearRow row .group).all Option.isNone = true := by
          simp [clearRow]
        have := rinv_pop h (row' := clearRow row .group) (by simp [clearRow]) (by simp [clearRow])
        simp only [doCommit, advances, hrow, hall, if_true]
        exact this
      · rw [h1.1, content_cons, hrow]; rfl
    · rw [hrow] at h2
      obtain ⟨e1, e2⟩ := firstValid_some h2
      have hset : ∀ (b : Nat) (v : Uop), (row.set k none)[b]? = some (some v) → row[b]? = some (some v) := by
        intro b v hb
        rw [List.getElem?_set] at hb
        split at hb
        · split at hb <;> cases hb
        · exact hb
      by_cases hall : (row.set k none).all Option.isNone = true
      · have hnone : ∀ o ∈ row.set k none, o = none := by
          intro o ho; simpa using List.all_eq_true.1 hall o ho
        refine ⟨W, ?_, ?_, fun hm => by (rw [h3] at hm; cases hm), (henq _).1, (henq _).2, by simp,
          fun hn => by cases hn⟩
        · rw [h1]
          have := rinv_pop h (row' := row.set k none) (by simp) hnone
          simp only [doCommit, advances, hrow, clearRow, hall, if_true]
          exact this
        · rw [h1, content_cons, hrow, e2, filterMap_none hnone]
          simp [commits, e1]
      · refine ⟨row.set k none :: W, ?_, ?_, fun hm => by (rw [h3] at hm; cases hm), (henq _).1, (henq _).2, by simp,
          fun hn => by cases hn⟩
        · rw [h1]
          have hex : ∃ v, some v ∈ row.set k none := by
            simp only [List.all_eq_true] at hall
            have : ∃ o ∈ row.set k none, ¬ o.isNone = true := by
              apply Classical.byContradiction
              intro hn; apply hall; intro o ho
              apply Classical.byContradiction; intro h'
              exact hn ⟨o, ho, h'⟩
            obtain ⟨o, ho, hn⟩ := this
            cases o with
            | none => simp at hn
            | some v => exact ⟨v, ho⟩
          have := rinv_head h (row' := row.set k none) (by simp) hset hex
          simp only [doCommit, advances, hrow, clearRow, hall, if_false, Bool.false_eq_true]
          exact this
        · rw [h1, content_cons, content_cons, hrow, e2]
          simp [commits, e1]

/-! ### Completion -/

abbrev key (u : Uop) := sig u
def sk (r : Row) : List (Option (Nat × Nat × Bool × Ty × BitVec 3)) := r.map (Option.map key)

theorem completeUop_key (w : Wb) (u : Uop) : key (completeUop w u) = key u := by
  simp only [completeUop]
  cases w.port <;> simp only
  all_goals (try split) <;> rfl

theorem sk_complete (s : State) (w : Wb) (l : Nat) : sk ((completeOne B s w).rows l) = sk (s.rows l) := by
  show sk (upd s.rows _ _ l) = _
  by_cases hl : l = lineOf B w.robIdx
  · rw [hl, upd_same]
    generalize s.rows (lineOf B w.robIdx) = row
    generalize bankOf B w.robIdx = b
    apply List.ext_getElem?
    intro i
    simp only [sk, List.getElem?_map, List.getElem?_modify]
    cases row[i]? with
    | none => rfl
    | some o =>
      cases o with
      | none => simp
      | some u => simp only [Option.map_some]; split <;> simp [completeUop_key]
  · rw [upd_ne _ _ hl]

theorem sk_getElem? {r r' : Row} (h : sk r' = sk r) {b : Nat} {u : Uop} (hu : r'[b]? = some (some u)) :
    ∃ v, r[b]? = some (some v) ∧ key v = key u := by
  have := congrArg (fun l => l[b]?) h
  simp only [sk, List.getElem?_map, hu, Option.map_some] at this
  cases hr : r[b]? with
  | none => simp [hr] at this
  | some o =>
    cases o with
    | none => simp [hr] at this
    | some v => simp only [hr, Option.map_some, Option.some.injEq] at this; exact ⟨v, rfl, this.symm⟩

theorem content_sk {W W' : List Row} (h : W'.map sk = W.map sk) :
    (content W').map key = (content W).map key := by
  have : ∀ V : List Row, (content V).map key = ((V.map sk).flatten).filterMap id := by
    intro V
    induction V with
    | nil => rfl
    | cons r V ih =>
      rw [content_cons, List.map_append, ih, List.map_cons, List.flatten_cons, List.filterMap_append]
      congr 1
      rw [sk]
      induction r with
      | nil => rfl
      | cons o r ih' => cases o <;> simp [ih']
  rw [this, this, h]

theorem rinv_sk {s s' W} (h : RInv B L s W) (hr : ∀ l, sk (s'.rows l) = sk (s.rows l))
    (e1 : s'.deq = s.deq) (e2 : s'.enq = s.enq) (e3 : s'.df = s.df) (e4 : s'.ef = s.ef) :
    ∃ W', RInv B L s' W' ∧ W'.map sk = W.map sk := by
  have hring : ∀ n h0, (ring L s'.rows h0 n).map sk = (ring L s.rows h0 n).map sk := by
    intro n; induction n with
    | zero => intro h0; rfl
    | succ n ih => intro h0; rw [ring, ring, List.map_cons, List.map_cons, hr, ih]
  have hW := hring W.length s.deq
  rw [h.win] at hW
  have hlW : (ring L s'.rows s.deq W.length).length = W.length := ring_length _ _ _ _
  refine ⟨ring L s'.rows s.deq W.length, ⟨?_, ?_, ?_, ?_, ?_, ?_, ?_, ?_, ?_⟩, hW⟩
  · rw [e1]; exact h.deqLt
  · rw [hlW]; exact h.len
  · rw [hlW, e1, e2]; exact h.enqEq
  · rw [hlW, e1, e3, e4]; exact h.flag
  · rw [hlW, e1]
  · intro k hk hkL o ho
    rw [hlW] at hk
    rw [e1] at ho
    cases o with
    | none => rfl
    | some u =>
      obtain ⟨b, hb⟩ := List.mem_iff_getElem?.1 ho
      obtain ⟨v, hv, _⟩ := sk_getElem? (hr _) hb
      have := h.out k hk hkL _ (List.mem_of_getElem? hv)
      cases this
  · intro l
    have := congrArg List.length (hr l)
    simp only [sk, List.length_map] at this
    rw [this]; exact h.rowLen l
  · intro r hr'
    obtain ⟨k, hk, rfl⟩ := (mem_ring L s'.rows _ _ h.deqLt).1 hr'
    have hmem : s.rows ((s.deq + k) % L) ∈ W := by
      rw [← h.win]; exact (mem_ring L s.rows _ _ h.deqLt).2 ⟨k, hk, rfl⟩
    obtain ⟨u, hu⟩ := h.ne _ hmem
    obtain ⟨b, hb⟩ := List.mem_iff_getElem?.1 hu
    obtain ⟨v, hv, _⟩ := sk_getElem? (hr _).symm hb
    exact ⟨v, List.mem_of_getElem? hv⟩
  · intro k hk b u hu
    rw [hlW] at hk
    rw [e1] at hu ⊢
    obtain ⟨v, hv, hkey⟩ := sk_getElem? (hr _) hu
    have := h.loc k hk b v hv
    simp only [key, sig, Prod.mk.injEq] at hkey
    rw [e3, ← hkey.2.1, ← hkey.2.2.1]; exact this

theorem complete_frame (wbs : List Wb) : ∀ s, (∀ l, sk ((wbs.foldl (completeOne B) s).rows l) = sk (s.rows l)) ∧
    (wbs.foldl (completeOne B) s).deq = s.deq ∧ (wbs.foldl (completeOne B) s).enq = s.enq ∧
    (wbs.foldl (completeOne B) s).df = s.df ∧ (wbs.foldl (completeOne B) s).ef = s.ef := by
  induction wbs with
  | nil => intro s; exact ⟨fun _ => rfl, rfl, rfl, rfl, rfl⟩
  | cons w ws ih =>
    intro s
    obtain ⟨a, b, c, d, e⟩ := ih (completeOne B s w)
    exact ⟨fun l => (a l).trans (sk_complete s w l), b, c, d, e⟩

/-! ### Misprediction -/

theorem clearLines_spec (stop : Nat) : ∀ m fuel ptr rows, ptr < L → m ≤ fuel → m < L → stop = (ptr + m) % L →
    ∀ l, clearLines L stop fuel ptr rows l =
      if ∃ j, j < m ∧ l = (ptr + j) % L then (rows l).map (fun _ => none) else rows l
  | 0, fuel, ptr, rows, hp, _, _, hs, l => by
    rw [Nat.add_zero, Nat.mod_eq_of_lt hp] at hs
    have : ¬ ∃ j, j < 0 ∧ l = (ptr + j) % L := by rintro ⟨j, hj, _⟩; omega
    rw [if_neg this]
    cases fuel <;> simp [clearLines, hs]
  | m + 1, fuel + 1, ptr, rows, hp, hf, hm, hs, l => by
    have hne : ptr ≠ stop := by
      intro h'
      have : (ptr + (m + 1)) % L = (ptr + 0) % L := by rw [← hs, Nat.add_zero, Nat.mod_eq_of_lt hp, h']
      have := mod_inj hp hm (by omega) this
      omega
    rw [clearLines, if_neg hne, clearLines_spec stop m fuel (inc L ptr) _ (inc_lt (by omega)) (by omega)
      (by omega) (by rw [inc_add]; exact hs) l]
    by_cases hl : l = ptr
    · have h1 : ¬ ∃ j, j < m ∧ l = (inc L ptr + j) % L := by
        rintro ⟨j, hj, he⟩
        rw [inc_add, hl] at he
        have : (ptr + (j + 1)) % L = (ptr + 0) % L := by rw [← he, Nat.add_zero, Nat.mod_eq_of_lt hp]
        have := mod_inj hp (by omega) (by omega) this
        omega
      have h2 : ∃ j, j < m + 1 ∧ l = (ptr + j) % L :=
        ⟨0, by omega, by rw [Nat.add_zero, Nat.mod_eq_of_lt hp, hl]⟩
      rw [if_neg h1, if_pos h2, hl, upd_same]
    · rw [upd_ne _ _ hl]
      have : (∃ j, j < m ∧ l = (inc L ptr + j) % L) ↔ (∃ j, j < m + 1 ∧ l = (ptr + j) % L) := by
        constructor
        · rintro ⟨j, hj, he⟩; rw [inc_add] at he; exact ⟨j + 1, by omega, he⟩
        · rintro ⟨j, hj, he⟩
          cases j with
          | zero => rw [Nat.add_zero, Nat.mod_eq_of_lt hp] at he; exact absurd he hl
          | succ j => exact ⟨j, by omega, by rw [inc_add]; exact he⟩
      by_cases hx : ∃ j, j < m ∧ l = (inc L ptr + j) % L
      · rw [if_pos hx, if_pos (this.1 hx)]
      · rw [if_neg hx, if_neg (fun h' => hx (this.2 h'))]

theorem upTo_append {r : Nat} : ∀ {l1 : List Uop} {u l2}, (∀ v ∈ l1, v.robIdx ≠ r) → u.robIdx = r →
    upTo r (l1 ++ u :: l2) = l1 ++ [u]
  | [], u, l2, _, hu => by simp [upTo, hu]
  | v :: l1, u, l2, h, hu => by
    rw [List.cons_append, upTo, if_neg (h v (List.mem_cons_self ..)),
      upTo_append (fun x hx => h x (List.mem_cons_of_mem _ hx)) hu]
    rfl

theorem mem_content {W : List Row} {u} : u ∈ content W ↔ ∃ r ∈ W, some u ∈ r := by
  simp only [content, List.mem_filterMap, List.mem_flatten, id_eq]
  constructor
  · rintro ⟨o, ⟨r, hr, ho⟩, rfl⟩; exact ⟨r, hr, ho⟩
  · rintro ⟨r, hr, ho⟩; exact ⟨_, ⟨r, hr, ho⟩, rfl⟩

theorem clearFrom_getElem? (b : Nat) (row : Row) (i : Nat) :
    (clearFrom b row)[i]? = if i < b then row[i]? else (row[i]?).map (fun _ => none) := by
  rw [clearFrom, List.getElem?_append]
  simp only [List.length_take, List.getElem?_map, List.getElem?_drop, List.getElem?_take]
  by_cases hb : i < b
  · rw [if_pos hb]
    by_cases hl : i < row.length
    · rw [if_pos (by omega), if_pos hb]
    · rw [if_neg (by omega)]
      have h1 : row[i]? = none := List.getElem?_eq_none (by omega)
      rw [h1, List.getElem?_eq_none (by omega), if_pos hb]; rfl
  · rw [if_neg hb]
    by_cases hl : i < row.length
    · have hm : min b row.length = b := Nat.min_eq_left (by omega)
      rw [hm, if_neg (by omega), if_neg hb, show b + (i - b) = i by omega]
    · rw [if_neg (by omega)]
      rw [List.getElem?_eq_none (l := row) (i := i) (by omega), List.getElem?_eq_none (by omega), if_neg hb]

theorem clearFrom_length (b : Nat) (row : Row) : (clearFrom b row).length = row.length := by
  simp [clearFrom]; omega

theorem clearFrom_filterMap (b : Nat) (row : Row) : (clearFrom b row).filterMap id = (row.take b).filterMap id := by
  rw [clearFrom, List.filterMap_append, filterMap_none (row := (row.drop b).map fun _ => none)
    (fun o ho => by obtain ⟨_, _, rfl⟩ := List.mem_map.1 ho; rfl)]
  simp

theorem rinv_branch {s W} (h : RInv B L s W) {r : Nat} (hr : ∃ u ∈ content W, u.robIdx = r) :
    ∃ W', RInv B L (doBranch B L s r) W' ∧ content W' = upTo r (content W) := by
  have hL := h.deqLt
  obtain ⟨u, hu, hur⟩ := hr
  obtain ⟨row, hrow, huin⟩ := mem_content.1 hu
  have hrow' := hrow
  rw [← h.win] at hrow'
  obtain ⟨p, hp, hrowp⟩ := (mem_ring L s.rows _ _ hL).1 hrow'
  obtain ⟨b, hb⟩ := List.mem_iff_getElem?.1 huin
  have hloc := h.loc p hp b u (by rw [← hrowp]; exact hb)
  have hbB : b < B := by
    have := h.rowLen ((s.deq + p) % L)
    rw [← hrowp] at this
    have : b < row.length := by
      apply Classical.byContradiction; intro hn
      rw [List.getElem?_eq_none (by omega)] at hb; cases hb
    omega
  have hlen := h.len
  have hline : lineOf B r = (s.deq + p) % L := by
    rw [lineOf, ← hur, hloc.1, Nat.mul_comm, Nat.mul_add_div (by omega), Nat.div_eq_of_lt hbB, Nat.add_zero]
  have hbank : bankOf B r = b := by
    rw [bankOf, ← hur, hloc.1, Nat.mul_comm, Nat.mul_add_mod, Nat.mod_eq_of_lt hbB]
  let V := ring L s.rows s.deq p
  have hVlen : V.length = p := ring_length _ _ _ _
  -- split of the window
  have hsplit : W = V ++ row :: ring L s.rows ((s.deq + (p + 1)) % L) (W.length - (p + 1)) := by
    have e : W.length = (p + 1) + (W.length - (p + 1)) := by omega
    conv => lhs; rw [← h.win, e, ring_append L s.rows hL, ring_snoc L s.rows hL]
    rw [hrowp, List.append_assoc]; rfl
  let rows1 := upd s.rows ((s.deq + p) % L) (clearFrom (b + 1) row)
  have hptr : ((s.deq + p) % L + 1) % L = (s.deq + (p + 1)) % L := by
    rw [Nat.mod_add_mod]; rfl
  have hbr : doBranch B L s r =
      { s with enq := (s.deq + (p + 1)) % L
               ef := if s.enq < (s.deq + (p + 1)) % L then !s.ef else s.ef
               rows := clearLines L s.enq L ((s.deq + (p + 1)) % L) rows1 } := by
    simp only [doBranch, hline, hbank, hptr, ← hrowp, rows1]
  have hspec := clearLines_spec (L := L) s.enq (W.length - (p + 1)) L ((s.deq + (p + 1)) % L) rows1
    (Nat.mod_lt _ (by omega)) (by omega) (by omega)
    (by rw [h.enqEq, Nat.mod_add_mod]; congr 1; omega)
  -- the lines after the step
  have hpos : ∀ k, k < L → clearLines L s.enq L ((s.deq + (p + 1)) % L) rows1 ((s.deq + k) % L) =
      if k < p then s.rows ((s.deq + k) % L) else if k = p then clearFrom (b + 1) row
      else if k < W.length then (s.rows ((s.deq + k) % L)).map (fun _ => none) else s.rows ((s.deq + k) % L) := by
    intro k hk
    rw [hspec]
    have hiff : (∃ j, j < W.length - (p + 1) ∧ (s.deq + k) % L = ((s.deq + (p + 1)) % L + j) % L) ↔
        p < k ∧ k < W.length := by
      constructor
      · rintro ⟨j, hj, he⟩
        rw [Nat.mod_add_mod, Nat.add_assoc] at he
        have := mod_inj hL hk (by omega) he
        omega
      · rintro ⟨h1, h2⟩
        refine ⟨k - (p + 1), by omega, ?_⟩
        rw [Nat.mod_add_mod]; congr 1; omega
    have hrows1 : rows1 ((s.deq + k) % L) = if k = p then clearFrom (b + 1) row else s.rows ((s.deq + k) % L) := by
      by_cases hkp : k = p
      · rw [if_pos hkp, hkp]; exact upd_same _ _ _
      · rw [if_neg hkp]
        refine upd_ne _ _ fun he => hkp ?_
        exact mod_inj hL hk (by omega) he
    by_cases h1 : p < k ∧ k < W.length
    · rw [if_pos (hiff.2 h1), hrows1, if_neg (by omega), if_neg (by omega), if_neg (by omega), if_pos h1.2]
    · rw [if_neg (fun h' => h1 (hiff.1 h')), hrows1]
      by_cases h2 : k < p
      · rw [if_pos h2, if_neg (by omega)]
      · rw [if_neg h2]
        by_cases h3 : k = p
        · rw [if_pos h3, if_pos h3]
        · rw [if_neg h3, if_neg h3, if_neg (by omega)]
  have hclen : (clearFrom (b + 1) row).length = B := by
    rw [clearFrom_length, hrowp]; exact h.rowLen _
  refine ⟨V ++ [clearFrom (b + 1) row], ?_, ?_⟩
  · rw [hbr]
    have hWl : (V ++ [clearFrom (b + 1) row]).length = p + 1 := by simp [hVlen]
    refine ⟨hL, by rw [hWl]; omega, by rw [hWl], ?_, ?_, ?_, ?_, ?_, ?_⟩
    · rw [hWl]
      show (if s.enq < (s.deq + (p + 1)) % L then !s.ef else s.ef) = (s.df ^^ decide (L ≤ s.deq + (p + 1)))
      rw [h.flag, h.enqEq]
      by_cases c1 : L ≤ s.deq + (p + 1)
      · have c2 : L ≤ s.deq + W.length := by omega
        have e1 : (s.deq + (p + 1)) % L = s.deq + (p + 1) - L := by
          rw [Nat.mod_eq_sub_mod c1, Nat.mod_eq_of_lt (by omega)]
        by_cases c3 : s.deq + W.length - L < L
        · have e2 : (s.deq + W.length) % L = s.deq + W.length - L := by
            rw [Nat.mod_eq_sub_mod c2, Nat.mod_eq_of_lt c3]
          rw [e1, e2, if_neg (by omega)]; simp [c1, c2]
        · omega
      · have e1 : (s.deq + (p + 1)) % L = s.deq + (p + 1) := Nat.mod_eq_of_lt (by omega)
        by_cases c2 : L ≤ s.deq + W.length
        · have e2 : (s.deq + W.length) % L = s.deq + W.length - L := by
            rw [Nat.mod_eq_sub_mod c2, Nat.mod_eq_of_lt (by omega)]
          rw [e1, e2, if_pos (by omega)]; simp [c1, c2]
        · have e2 : (s.deq + W.length) % L = s.deq + W.length := Nat.mod_eq_of_lt (by omega)
          rw [e1, e2, if_neg (by omega)]; simp [c1, c2]
    · rw [hWl]
      show ring L (clearLines L s.enq L ((s.deq + (p + 1)) % L) rows1) s.deq (p + 1) = _
      rw [ring_snoc L _ hL, hpos p (by omega), if_neg (by omega), if_pos rfl]
      congr 1
      refine ring_congr L _ _ p s.deq hL fun k hk => ?_
      rw [hpos k (by omega), if_pos hk]
    · intro k hk hkL o ho
      rw [hWl] at hk
      change o ∈ clearLines L s.enq L ((s.deq + (p + 1)) % L) rows1 ((s.deq + k) % L) at ho
      rw [hpos k hkL, if_neg (by omega), if_neg (by omega)] at ho
      split at ho
      · obtain ⟨_, _, rfl⟩ := List.mem_map.1 ho; rfl
      · exact h.out k (by omega) hkL o ho
    · intro l
      show (clearLines L s.enq L ((s.deq + (p + 1)) % L) rows1 l).length = B
      have hr1 : (rows1 l).length = B := by
        by_cases hl : l = (s.deq + p) % L
        · rw [hl]; simp only [rows1]; rw [upd_same]; exact hclen
        · simp only [rows1]; rw [upd_ne _ _ hl]; exact h.rowLen l
      rw [hspec]; split
      · rw [List.length_map]; exact hr1
      · exact hr1
    · intro x hx
      rcases List.mem_append.1 hx with hx | hx
      · exact h.ne x (by rw [hsplit]; exact List.mem_append_left _ hx)
      · rw [List.mem_singleton] at hx
        refine ⟨u, ?_⟩
        rw [hx]
        apply List.mem_of_getElem? (i := b)
        rw [clearFrom_getElem?, if_pos (by omega)]; exact hb
    · intro k hk c v hv
      rw [hWl] at hk
      change (clearLines L s.enq L ((s.deq + (p + 1)) % L) rows1 ((s.deq + k) % L))[c]? = some (some v) at hv
      rw [hpos k (by omega)] at hv
      by_cases hkp : k < p
      · rw [if_pos hkp] at hv; exact h.loc k (by omega) c v hv
      · have : k = p := by omega
        subst this
        rw [if_neg (by omega), if_pos rfl, clearFrom_getElem?] at hv
        split at hv
        · exact h.loc k hp c v (by rw [← hrowp]; exact hv)
        · cases hx : row[c]? <;> simp [hx] at hv
  · rw [content_append, content_cons, clearFrom_filterMap]
    conv => rhs; rw [hsplit, content_append, content_cons]
    have htake : row = row.take b ++ some u :: row.drop (b + 1) := by
      conv => lhs; rw [← List.take_append_drop b row]
      congr 1
      have hbl : b < row.length := by
        apply Classical.byContradiction; intro hn
        rw [List.getElem?_eq_none (by omega)] at hb; cases hb
      rw [List.drop_eq_getElem_cons hbl]
      congr 1
      rw [List.getElem?_eq_getElem hbl] at hb
      exact Option.some.inj hb
    have htk1 : row.take (b + 1) = row.take b ++ [some u] := by
      rw [List.take_add_one, hb]; rfl
    have e1 : row.filterMap id = (row.take b).filterMap id ++ u :: (row.drop (b + 1)).filterMap id := by
      conv => lhs; rw [htake]
      rw [List.filterMap_append]; simp
    rw [htk1, List.filterMap_append, e1]
    have e2 : List.filterMap id [some u] = [u] := rfl
    rw [e2]
    have e3 : content ([] : List Row) = [] := rfl
    rw [e3, List.append_nil, ← List.append_assoc, List.append_assoc (List.filterMap id (List.take b row)),
      List.cons_append, ← List.append_assoc (content V)]
    refine (upTo_append ?_ hur).symm
    intro v hv
    rcases List.mem_append.1 hv with hv | hv
    · obtain ⟨x, hx, hvx⟩ := mem_content.1 hv
      obtain ⟨k, hk, rfl⟩ := (mem_ring L s.rows _ _ hL).1 hx
      obtain ⟨c, hc⟩ := List.mem_iff_getElem?.1 hvx
      have hl := h.loc k (by omega) c v hc
      have hcB : c < B := by
        have := h.rowLen ((s.deq + k) % L)
        apply Classical.byContradiction; intro hn
        rw [List.getElem?_eq_none (by omega)] at hc; cases hc
      intro he
      have : lineOf B r = (s.deq + k) % L := by
        rw [lineOf, ← he, hl.1, Nat.mul_comm, Nat.mul_add_div (by omega), Nat.div_eq_of_lt hcB, Nat.add_zero]
      rw [hline] at this
      have := mod_inj hL (by omega) (by omega) this
      omega
    · simp only [List.mem_filterMap, id_eq] at hv
      obtain ⟨o, ho, rfl⟩ := hv
      obtain ⟨c, hc⟩ := List.mem_iff_getElem?.1 ho
      rw [List.getElem?_take] at hc
      split at hc
      · rename_i hcb
        have hl := h.loc p hp c v (by rw [← hrowp]; exact hc)
        rw [hl.1, ← hur, hloc.1]; omega
      · cases hc

/-! ### Dispatch and flush -/

theorem zip_none : ∀ (old fire : Row), (∀ o ∈ old, o = none) → old.length = fire.length →
    List.zipWith (fun old f => match f with | some u => some (fromDis u) | none => old) old fire
      = fire.map (Option.map fromDis)
  | [], [], _, _ => rfl
  | o :: old, f :: fire, h, hl => by
    rw [List.zipWith_cons_cons, List.map_cons, zip_none old fire (fun x hx => h x (List.mem_cons_of_mem _ hx)) (by simpa using hl)]
    congr 1
    cases f with
    | none => exact h o (List.mem_cons_self ..)
    | some u => rfl

theorem rinv_fire {s W} (h : RInv B L s W) (ready : Bool) (fire : Row) (hw : fire.length = B)
    (hidx : ∀ b u, fire[b]? = some (some u) → u.robIdx = s.enq * B + b ∧ u.robFlag = s.ef)
    (hr : ready = true → W.length < L) (hnr : ready = false → ∀ o ∈ fire, o = none) :
    ∃ W', RInv B L (doFire L s ready fire) W' ∧
      content W' = content W ++ (fire.filterMap id).map fromDis := by
  have hL := h.deqLt
  by_cases hf : (ready && fire.any Option.isSome) = true
  · simp only [doFire, hf, if_true]
    simp only [Bool.and_eq_true] at hf
    have hlen := hr hf.1
    have hnone : ∀ o ∈ s.rows s.enq, o = none := by
      rw [h.enqEq]; exact h.out W.length (by omega) hlen
    have hz := zip_none _ _ hnone (show (s.rows s.enq).length = fire.length by rw [h.rowLen, hw])
    erw [hz]
    have hWl : (W ++ [fire.map (Option.map fromDis)]).length = W.length + 1 := by simp
    have hee : inc L s.enq = (s.deq + (W.length + 1)) % L := by
      rw [h.enqEq, inc, Nat.mod_add_mod]; rfl
    have hpne : ∀ k, k < L → k ≠ W.length → (s.deq + k) % L ≠ s.enq := by
      intro k hk hne he
      rw [h.enqEq] at he
      exact hne (mod_inj hL hk hlen he)
    have hfm : ∀ fire : Row, (fire.map (Option.map fromDis)).filterMap id = (fire.filterMap id).map fromDis := by
      intro fire
      induction fire with
      | nil => rfl
      | cons o r ih => cases o <;> simp [ih]
    refine ⟨W ++ [fire.map (Option.map fromDis)], ⟨hL, by rw [hWl]; omega, by rw [hWl]; exact hee, ?_, ?_, ?_, ?_, ?_, ?_⟩, ?_⟩
    · rw [hWl]
      show (if inc L s.enq = 0 then !s.ef else s.ef) = (s.df ^^ decide (L ≤ s.deq + (W.length + 1)))
      rw [h.flag, hee]
      by_cases c1 : s.deq + (W.length + 1) < L
      · have c2 : ¬ L ≤ s.deq + W.length := by omega
        have c3 : ¬ L ≤ s.deq + (W.length + 1) := by omega
        rw [Nat.mod_eq_of_lt c1, if_neg (by omega)]; simp [c2, c3]
      · have c3 : L ≤ s.deq + (W.length + 1) := by omega
        rw [Nat.mod_eq_sub_mod c3, Nat.mod_eq_of_lt (by omega)]
        by_cases c4 : s.deq + (W.length + 1) = L
        · have c2 : ¬ L ≤ s.deq + W.length := by omega
          rw [if_pos (by omega)]; simp [c2, c3]
        · have c2 : L ≤ s.deq + W.length := by omega
          rw [if_neg (by omega)]; simp [c2, c3]
    · rw [hWl]
      show ring L (upd s.rows s.enq _) s.deq (W.length + 1) = _
      rw [ring_snoc L _ hL, ← h.enqEq, upd_same]
      congr 1
      rw [ring_upd L s.rows _ _ _ _ hL (by rw [h.enqEq]; exact Nat.mod_lt _ (by omega))]
      · exact h.win
      · intro k hk; exact hpne k (by omega) (by omega)
    · intro k hk hkL o ho
      rw [hWl] at hk
      change o ∈ upd s.rows s.enq _ ((s.deq + k) % L) at ho
      rw [upd_ne _ _ (hpne k hkL (by omega))] at ho
      exact h.out k (by omega) hkL o ho
    · intro l
      show (upd s.rows s.enq _ l).length = B
      by_cases hl : l = s.enq
      · rw [hl, upd_same, List.length_map, hw]
      · rw [upd_ne _ _ hl]; exact h.rowLen l
    · intro r hr'
      rcases List.mem_append.1 hr' with hr' | hr'
      · exact h.ne r hr'
      · rw [List.mem_singleton] at hr'
        obtain ⟨o, ho, hos⟩ := List.any_eq_true.1 hf.2
        cases o with
        | none => simp at hos
        | some u => exact ⟨fromDis u, by rw [hr']; exact List.mem_map.2 ⟨_, ho, rfl⟩⟩
    · intro k hk b u hu
      rw [hWl] at hk
      change (upd s.rows s.enq _ ((s.deq + k) % L))[b]? = some (some u) at hu
      by_cases hkl : k = W.length
      · subst hkl
        rw [← h.enqEq, upd_same, List.getElem?_map] at hu
        cases hfb : fire[b]? with
        | none => simp [hfb] at hu
        | some o =>
          cases o with
          | none => simp [hfb] at hu
          | some v =>
            simp only [hfb, Option.map_some, Option.some.injEq] at hu
            have := hidx b v hfb
            subst hu
            rw [← h.enqEq]
            refine ⟨this.1, ?_⟩
            show v.robFlag = (s.df ^^ decide (L ≤ s.deq + W.length))
            rw [this.2, h.flag]
      · rw [upd_ne _ _ (hpne k (by omega) hkl)] at hu
        exact h.loc k (by omega) b u hu
    · rw [content_append, content_cons, hfm]; simp [content]
  · rw [doFire, if_neg hf]
    refine ⟨W, h, ?_⟩
    have hn : ∀ o ∈ fire, o = none := by
      cases hrd : ready with
      | false => exact hnr hrd
      | true =>
        rw [hrd, Bool.true_and] at hf
        intro o ho
        cases o with
        | none => rfl
        | some u => exact absurd (List.any_eq_true.2 ⟨_, ho, rfl⟩) hf
    rw [filterMap_none hn]; simp

theorem rinv_flush {s W} (h : RInv B L s W) : RInv B L (doFlush s) [] := by
  have hL := h.deqLt
  refine ⟨by show 0 < L; omega, by simp, by show 0 = (0 + 0) % L; simp, ?_, rfl, ?_, ?_, by simp, by simp⟩
  · show false = (false ^^ decide (L ≤ 0 + 0)); simp; omega
  · intro k _ _ o ho
    change o ∈ (s.rows _).map (fun _ => none) at ho
    obtain ⟨_, _, rfl⟩ := List.mem_map.1 ho; rfl
  · intro l; show ((s.rows l).map _).length = B; rw [List.length_map]; exact h.rowLen l

/-! ### A cycle -/

theorem map_upTo (r : Nat) : ∀ {l l' : List Uop}, l.map key = l'.map key →
    (upTo r l).map key = (upTo r l').map key
  | [], [], _ => rfl
  | [], _ :: _, h => by simp at h
  | _ :: _, [], h => by simp at h
  | u :: l, v :: l', h => by
    simp only [List.map_cons, List.cons.injEq] at h
    have hr : u.robIdx = v.robIdx := by
      have := h.1; simp only [key, sig, Prod.mk.injEq] at this; exact this.2.1
    simp only [upTo, hr]
    split
    · simp [h.1]
    · simp only [List.map_cons, h.1, map_upTo r h.2]

theorem key_fromDis (u : Uop) : key (fromDis u) = key u := rfl

/-- What happens to the content, as signatures. -/
theorem rinv_step {s W} (h : RInv B L s W) (i : Input) (hv : Valid B L s i) :
    ∃ W', RInv B L (step B L s i) W' ∧
      ∃ rest, content W = retired s i ++ rest ∧ (i.mispred.isSome = true → retired s i = []) ∧
      (content W').map sig =
        if flushed s i then [] else
          match i.mispred with
          | some r => (upTo r (content W)).map sig
          | none => rest.map sig ++ (dispatched i).map sig := by
  obtain ⟨W1, h1, hc1, hm1, he1, hf1, hl1, _⟩ :=
    rinv_commit h i.mispred.isSome i.frontStall i.intReq i.storePending
  change RInv B L (doCommit L s (decision s i)) W1 at h1
  change content W = retired s i ++ content W1 at hc1
  change (doCommit L s (decision s i)).enq = s.enq at he1
  change (doCommit L s (decision s i)).ef = s.ef at hf1
  have hret : i.mispred.isSome = true → retired s i = [] := by
    intro hm; rw [retired, decision, hm1 hm]; rfl
  have hflm : i.mispred.isSome = true → flushed s i = false := by
    intro hm; rw [flushed, decision, hm1 hm]; rfl
  obtain ⟨f1, f2, f3, f4, f5⟩ := complete_frame (B := B) i.wbs (doCommit L s (decision s i))
  obtain ⟨W2, h2, hW2⟩ := rinv_sk h1 f1 f2 f3 f4 f5
  have hk2 := content_sk hW2
  have hlen2 : W2.length = W1.length := by
    have := congrArg List.length hW2; simpa using this
  have hfull := rinv_full h
  by_cases hfl : flushed s i = true
  · have hmn : i.mispred = none := by
      cases hm : i.mispred with
      | none => rfl
      | some r => rw [hflm (by rw [hm]; rfl)] at hfl; cases hfl
    refine ⟨[], ?_, content W1, hc1, hret, by rw [if_pos hfl]; rfl⟩
    obtain ⟨W4, h4, _⟩ := rinv_fire h2 (readyOut s) i.fire hv.width
      (by rw [f3, f5, he1, hf1]; exact hv.idx)
      (by
        intro hr
        simp only [readyOut, Bool.not_eq_true'] at hr
        have : W.length ≠ L := fun he => by rw [hfull.2 he] at hr; cases hr
        have := h.len
        omega)
      (by
        intro hr
        simp only [readyOut, Bool.not_eq_false'] at hr
        exact hv.full hr)
    have := rinv_flush h4
    have hfl' : (flushOut (s.rows s.deq) (decision s i)).1 = true := hfl
    simp only [step, hfl', hmn, if_true]
    exact this
  · have hfl' : (flushOut (s.rows s.deq) (decision s i)).1 = false := by simpa [flushed] using hfl
    simp only [step, hfl', Bool.false_eq_true, if_false]
    cases hm : i.mispred with
    | none =>
      simp only
      obtain ⟨W4, h4, hc4⟩ := rinv_fire h2 (readyOut s) i.fire hv.width
        (by rw [f3, f5, he1, hf1]; exact hv.idx)
        (by
          intro hr
          simp only [readyOut, Bool.not_eq_true'] at hr
          have : W.length ≠ L := fun he => by rw [hfull.2 he] at hr; cases hr
          have := h.len
          omega)
        (by
          intro hr
          simp only [readyOut, Bool.not_eq_false'] at hr
          exact hv.full hr)
      refine ⟨W4, h4, content W1, hc1, by simp, ?_⟩
      rw [if_neg hfl, hc4, List.map_append, List.map_map]
      have : (content W2).map sig = (content W1).map sig := hk2
      rw [this]; rfl
    | some r =>
      simp only
      have hms : i.mispred.isSome = true := by rw [hm]; rfl
      have hvm := hv.mispred r hm
      have hins : insts L s = content W := rinv_insts h
      have hc1' : content W = content W1 := by rw [hc1, hret hms]; rfl
      have hmem : ∃ u ∈ content W2, u.robIdx = r := by
        obtain ⟨u, hu, hr⟩ := hvm.1
        rw [hins, hc1'] at hu
        have : key u ∈ (content W1).map key := List.mem_map.2 ⟨u, hu, rfl⟩
        rw [← hk2] at this
        obtain ⟨v, hv', hk⟩ := List.mem_map.1 this
        simp only [key, sig, Prod.mk.injEq] at hk
        exact ⟨v, hv', by rw [hk.2.1, hr]⟩
      obtain ⟨W3, h3, hc3⟩ := rinv_branch h2 hmem
      have hnf : doFire L (doBranch B L (i.wbs.foldl (completeOne B) (doCommit L s (decision s i))) r)
          (readyOut s) i.fire = doBranch B L (i.wbs.foldl (completeOne B) (doCommit L s (decision s i))) r := by
        have : i.fire.any Option.isSome = false := by
          rw [List.any_eq_false]; intro o ho; rw [hvm.2 o ho]; simp
        simp [doFire, this]
      rw [hnf]
      refine ⟨W3, h3, content W1, hc1, fun _ => hret hms, ?_⟩
      rw [if_neg hfl, hc3]
      exact map_upTo r (by rw [hc1']; exact hk2)

theorem rinv_init (hL : 0 < L) : RInv B L (Rob.init B) [] := by
  refine ⟨hL, by simp, by simp [Rob.init], ?_, rfl, ?_, ?_, by simp, by simp⟩
  · show false = (false ^^ decide (L ≤ 0 + 0)); simp; omega
  · intro k _ _ o ho
    exact (List.mem_replicate.1 ho).2
  · intro l; exact List.length_replicate

theorem rinv_reach (hL : 0 < L) {s} (h : Reach B L s) : ∃ W, RInv B L s W := by
  induction h with
  | init => exact ⟨[], rinv_init hL⟩
  | step i _ hv ih =>
    obtain ⟨W, hW⟩ := ih
    obtain ⟨W', hW', _⟩ := rinv_step hW i hv
    exact ⟨W', hW'⟩

theorem hist_reach {s d c q g} (h : Hist B L s d c q g) : Reach B L s := by
  induction h with
  | init => exact .init
  | step i _ hv ih => exact .step i ih hv

/-! ### Completion bookkeeping -/

def Done (B : Nat) (s : State) (g : Nat → BitVec 3) : Prop :=
  ∀ l b u, b < B → (s.rows l)[b]? = some (some u) → u.cplt = g (l * B + b)

/-- `s'` holds nothing that `s` does not hold at the same place. -/
def Sub (s' s : State) : Prop := ∀ l (b : Nat) u, (s'.rows l)[b]? = some (some u) → (s.rows l)[b]? = some (some u)

theorem Done.sub {s s' g} (h : Done B s g) (hs : Sub s' s) : Done B s' g :=
  fun l b u hb hu => h l b u hb (hs l b u hu)

theorem sub_upd {s : State} {l0 : Nat} {row : Row}
    (hr : ∀ (b : Nat) u, row[b]? = some (some u) → (s.rows l0)[b]? = some (some u)) (l b : Nat) (u : Uop)
    (hu : (upd s.rows l0 row l)[b]? = some (some u)) : (s.rows l)[b]? = some (some u) := by
  by_cases hl : l = l0
  · rw [hl, upd_same] at hu; rw [hl]; exact hr b u hu
  · rw [upd_ne _ _ hl] at hu; exact hu

theorem mapnone_get {row : Row} {b : Nat} {u : Uop} : ¬ (row.map (fun _ => (none : Option Uop)))[b]? = some (some u) := by
  rw [List.getElem?_map]; cases row[b]? <;> simp

theorem sub_commit (s : State) (d : Decision) : Sub (doCommit L s d) s := by
  have key : ∀ (b : Nat) u, (clearRow (s.rows s.deq) d)[b]? = some (some u) → (s.rows s.deq)[b]? = some (some u) := by
    intro b u hu
    cases d with
    | nothing => exact hu
    | group => exact absurd hu mapnone_get
    | single k int =>
      simp only [clearRow, List.getElem?_set] at hu
      split at hu
      · split at hu <;> cases hu
      · exact hu
  intro l b u hu
  have : (doCommit L s d).rows = upd s.rows s.deq (clearRow (s.rows s.deq) d) := by
    simp only [doCommit]; split <;> rfl
  rw [this] at hu
  exact sub_upd key l b u hu

theorem sub_clearLines (stop : Nat) : ∀ fuel ptr rows (l b : Nat) u,
    (clearLines L stop fuel ptr rows l)[b]? = some (some u) → (rows l)[b]? = some (some u)
  | 0, _, _, _, _, _, h => h
  | fuel + 1, ptr, rows, l, b, u, h => by
    rw [clearLines] at h
    split at h
    · exact h
    · have := sub_clearLines stop fuel _ _ l b u h
      by_cases hl : l = ptr
      · rw [hl, upd_same] at this; exact absurd this mapnone_get
      · rw [upd_ne _ _ hl] at this; exact this

theorem sub_branch (s : State) (r : Nat) : Sub (doBranch B L s r) s := by
  intro l b u hu
  have := sub_clearLines _ _ _ _ l b u hu
  refine sub_upd (fun b u hb => ?_) l b u this
  rw [clearFrom_getElem?] at hb
  split at hb
  · exact hb
  · cases hx : (s.rows (lineOf B r))[b]? <;> simp [hx] at hb

theorem sub_flush (s : State) : Sub (doFlush s) s := fun _ _ _ hu => absurd hu mapnone_get

theorem cplt_completeUop (w : Wb) (u : Uop) : (completeUop w u).cplt = u.cplt ||| w.bit := by
  simp only [completeUop]
  cases w.port <;> simp only
  all_goals (try split) <;> rfl

theorem done_complete {s g} (h : Done B s g) (w : Wb) :
    Done B (completeOne B s w) (fun r => if w.robIdx = r then g r ||| w.bit else g r) := by
  intro l b u hb hu
  have hpos : (w.robIdx = l * B + b) ↔ (l = lineOf B w.robIdx ∧ b = bankOf B w.robIdx) := by
    constructor
    · intro he
      rw [lineOf, bankOf, he, Nat.mul_comm, Nat.mul_add_div (by omega), Nat.div_eq_of_lt hb, Nat.add_zero,
        Nat.mul_add_mod, Nat.mod_eq_of_lt hb]
      exact ⟨rfl, rfl⟩
    · rintro ⟨h1, h2⟩
      rw [h1, h2, lineOf, bankOf]
      have := Nat.div_add_mod w.robIdx B
      rw [Nat.mul_comm] at this; exact this.symm
  change (upd s.rows (lineOf B w.robIdx) ((s.rows (lineOf B w.robIdx)).modify (bankOf B w.robIdx)
    (Option.map (completeUop w))) l)[b]? = some (some u) at hu
  by_cases hl : l = lineOf B w.robIdx
  · rw [hl, upd_same, List.getElem?_modify] at hu
    cases hx : (s.rows (lineOf B w.robIdx))[b]? with
    | none => simp [hx] at hu
    | some o =>
      cases o with
      | none => rw [hx] at hu; simp at hu
      | some v =>
        rw [hx] at hu
        have hg := h _ b v hb hx
        rw [← hl] at hg
        show u.cplt = if w.robIdx = l * B + b then g (l * B + b) ||| w.bit else g (l * B + b)
        by_cases hbk : bankOf B w.robIdx = b
        · simp only [hbk, Option.map_eq_map, Option.map_some, Option.some.injEq, if_true] at hu
          rw [if_pos (hpos.2 ⟨hl, hbk.symm⟩), ← hu, cplt_completeUop, hg]
        · simp only [hbk, Option.map_eq_map, Option.map_some, Option.some.injEq, if_false] at hu
          rw [if_neg (fun he => hbk (hpos.1 he).2.symm), ← hg, ← hu]
  · rw [upd_ne _ _ hl] at hu
    show u.cplt = if w.robIdx = l * B + b then g (l * B + b) ||| w.bit else g (l * B + b)
    rw [if_neg (fun he => hl (hpos.1 he).1)]
    exact h l b u hb hu

theorem done_foldl (wbs : List Wb) : ∀ s g, Done B s g →
    Done B (wbs.foldl (completeOne B) s)
      (fun r => wbs.foldl (fun m w => if w.robIdx = r then m ||| w.bit else m) (g r)) := by
  induction wbs with
  | nil => intro s g h; exact h
  | cons w ws ih =>
    intro s g h
    have := ih _ _ (done_complete h w)
    intro l b u hb hu
    rw [this l b u hb hu]; rfl

theorem done_fire {s s' g W} (h : Done B s g) (hW : RInv B L s W) (ready : Bool) (fire : Row)
    (hw : fire.length = B)
    (hidx : ∀ b u, fire[b]? = some (some u) → u.robIdx = s.enq * B + b)
    (hr : ready = true → W.length < L) (hnr : ready = false → ∀ o ∈ fire, o = none)
    (hs' : s' = doFire L s ready fire) :
    Done B s' (fun r => if ∃ u ∈ fire.filterMap id, u.robIdx = r then 0 else g r) := by
  have hL := hW.deqLt
  have hnomem : (∀ o ∈ fire, o = none) → ∀ r, ¬ ∃ u ∈ fire.filterMap id, u.robIdx = r := by
    rintro hn r ⟨u, hu, _⟩
    rw [filterMap_none hn] at hu; cases hu
  have hmem : ∀ u ∈ fire.filterMap id, ∃ b, b < B ∧ u.robIdx = s.enq * B + b ∧ fire[b]? = some (some u) := by
    intro u hu
    simp only [List.mem_filterMap, id_eq] at hu
    obtain ⟨o, ho, rfl⟩ := hu
    obtain ⟨b, hb⟩ := List.mem_iff_getElem?.1 ho
    refine ⟨b, ?_, hidx b u hb, hb⟩
    have := (List.getElem?_eq_some_iff.1 hb).1; omega
  subst hs'
  by_cases hf : (ready && fire.any Option.isSome) = true
  · intro l b u hb hu
    simp only [doFire, hf, if_true] at hu
    simp only [Bool.and_eq_true] at hf
    have hnone : ∀ o ∈ s.rows s.enq, o = none := by
      rw [hW.enqEq]; exact hW.out W.length (by omega) (hr hf.1)
    have hz := zip_none _ _ hnone (show (s.rows s.enq).length = fire.length by rw [hW.rowLen, hw])
    erw [hz] at hu
    by_cases hl : l = s.enq
    · rw [hl, upd_same, List.getElem?_map] at hu
      cases hx : fire[b]? with
      | none => simp [hx] at hu
      | some o =>
        cases o with
        | none => simp [hx] at hu
        | some v =>
          simp only [hx, Option.map_some, Option.some.injEq] at hu
          have hv : ∃ u ∈ fire.filterMap id, u.robIdx = l * B + b :=
            ⟨v, List.mem_filterMap.2 ⟨some v, List.mem_of_getElem? hx, rfl⟩, by rw [hl]; exact hidx b v hx⟩
          refine Eq.trans ?_ (if_pos hv).symm
          rw [← hu]; rfl
    · rw [upd_ne _ _ hl] at hu
      refine Eq.trans ?_ (if_neg ?_).symm
      · exact h l b u hb hu
      · rintro ⟨v, hv, he⟩
        obtain ⟨b', hb', he', _⟩ := hmem v hv
        rw [he] at he'
        apply hl
        have e1 : (l * B + b) / B = l := by
          rw [Nat.mul_comm, Nat.mul_add_div (by omega), Nat.div_eq_of_lt hb, Nat.add_zero]
        have e2 : (s.enq * B + b') / B = s.enq := by
          rw [Nat.mul_comm, Nat.mul_add_div (by omega), Nat.div_eq_of_lt hb', Nat.add_zero]
        rw [← e1, he', e2]
  · rw [doFire, if_neg hf]
    have hn : ∀ o ∈ fire, o = none := by
      cases hrd : ready with
      | false => exact hnr hrd
      | true =>
        rw [hrd, Bool.true_and] at hf
        intro o ho
        cases o with
        | none => rfl
        | some u => exact absurd (List.any_eq_true.2 ⟨_, ho, rfl⟩) hf
    intro l b u hb hu
    exact (h l b u hb hu).trans (if_neg (hnomem hn _)).symm

theorem done_step {s W g} (h : RInv B L s W) (hd : Done B s g) (i : Input) (hv : Valid B L s i) :
    Done B (step B L s i) (report g i) := by
  obtain ⟨W1, h1, hc1, hm1, he1, hf1, hl1, _⟩ :=
    rinv_commit h i.mispred.isSome i.frontStall i.intReq i.storePending
  change RInv B L (doCommit L s (decision s i)) W1 at h1
  change (doCommit L s (decision s i)).enq = s.enq at he1
  obtain ⟨f1, f2, f3, f4, f5⟩ := complete_frame (B := B) i.wbs (doCommit L s (decision s i))
  obtain ⟨W2, h2, hW2⟩ := rinv_sk h1 f1 f2 f3 f4 f5
  have hlen2 : W2.length = W1.length := by
    have := congrArg List.length hW2; simpa using this
  have hfull := rinv_full h
  have hd2 := done_foldl i.wbs _ _ (hd.sub (sub_commit (L := L) s (decision s i)))
  have hrep : report g i = fun r => if ∃ u ∈ i.fire.filterMap id, u.robIdx = r then 0 else
      i.wbs.foldl (fun m w => if w.robIdx = r then m ||| w.bit else m) (g r) := rfl
  cases hm : i.mispred with
  | none =>
    have hd4 := done_fire hd2 h2 (readyOut s) i.fire hv.width
      (by rw [f3, he1]; exact fun b u hb => (hv.idx b u hb).1)
      (by
        intro hr
        simp only [readyOut, Bool.not_eq_true'] at hr
        have : W.length ≠ L := fun he => by rw [hfull.2 he] at hr; cases hr
        have := h.len
        omega)
      (by
        intro hr
        simp only [readyOut, Bool.not_eq_false'] at hr
        exact hv.full hr) rfl
    rw [← hrep] at hd4
    simp only [step, hm]
    split
    · exact hd4.sub (sub_flush _)
    · exact hd4
  | some r =>
    have hvm := hv.mispred r hm
    have hdec : decision s i = .nothing := hm1 (by rw [hm]; rfl)
    have hfl : (flushOut (s.rows s.deq) (decision s i)).1 = false := by rw [hdec]; rfl
    have hnf : ∀ s', doFire L s' (readyOut s) i.fire = s' := by
      intro s'
      have : i.fire.any Option.isSome = false := by
        rw [List.any_eq_false]; intro o ho; rw [hvm.2 o ho]; simp
      simp [doFire, this]
    simp only [step, hm, hfl, Bool.false_eq_true, if_false, hnf]
    have hd3 := hd2.sub (sub_branch (B := B) (L := L) _ r)
    intro l b u hb hu
    refine (hd3 l b u hb hu).trans (if_neg ?_).symm
    rintro ⟨v, hv', _⟩
    rw [dispatched, filterMap_none hvm.2] at hv'; cases hv'

theorem done_hist (hL : 0 < L) {s d c q g} (h : Hist B L s d c q g) : Done B s g := by
  induction h with
  | init g =>
    intro l b u hb hu
    have := List.mem_of_getElem? hu
    have := (List.mem_replicate.1 this).2
    cases this
  | step i hh hv ih =>
    obtain ⟨W, hW⟩ := rinv_reach hL (hist_reach hh)
    exact done_step hW ih i hv

/-! ### History -/

theorem upTo_prefix (r : Nat) : ∀ l, upTo r l ++ l.drop (upTo r l).length = l
  | [] => rfl
  | u :: l => by
    rw [upTo]
    split
    · simp
    · simp [upTo_prefix r l]

theorem ids_of_sig {l l' : List Uop} (h : l.map sig = l'.map sig) : l.map (·.id) = l'.map (·.id) := by
  have := congrArg (List.map Prod.fst) h
  simpa [List.map_map, Function.comp_def, sig] using this

/-- The queue equation for payloads. -/
theorem ids_step {s W} (h : RInv B L s W) (i : Input) (hv : Valid B L s i) :
    ∃ rest, insts L s = retired s i ++ rest ∧ (i.mispred.isSome = true → retired s i = []) ∧
      (insts L (step B L s i)).map (·.id) =
        if flushed s i then [] else
          match i.mispred with
          | some r => (upTo r (insts L s)).map (·.id)
          | none => rest.map (·.id) ++ (dispatched i).map (·.id) := by
  obtain ⟨W', hW', rest, h1, h2, h3⟩ := rinv_step h i hv
  refine ⟨rest, by rw [rinv_insts h]; exact h1, h2, ?_⟩
  rw [rinv_insts hW', rinv_insts h]
  have := congrArg (List.map Prod.fst) h3
  split at h3
  · rename_i hf
    rw [if_pos hf]
    exact List.map_eq_nil_iff.2 (List.map_eq_nil_iff.1 h3)
  · rename_i hf
    rw [if_neg hf]
    cases hm : i.mispred with
    | some r => simp only [hm] at h3 ⊢; exact ids_of_sig h3
    | none =>
      simp only [hm] at h3 ⊢
      rw [← List.map_append] at h3
      rw [ids_of_sig h3, List.map_append]

theorem hist_order (hL : 0 < L) {s d c q g} (h : Hist B L s d c q g) :
    (c ++ (insts L s).map (·.id)).Sublist d ∧ d.Perm (c ++ (insts L s).map (·.id) ++ q) := by
  induction h with
  | init g => rw [rinv_insts (rinv_init (B := B) hL)]; simp [content]
  | @step s d c q g i hh hv ih =>
    obtain ⟨W, hW⟩ := rinv_reach hL (hist_reach hh)
    obtain ⟨rest, h1, h2, h3⟩ := ids_step hW i hv
    obtain ⟨ihs, ihp⟩ := ih
    rw [h3]
    by_cases hf : flushed s i = true
    · have hsq : squashed L s i = rest ++ dispatched i := by
        rw [squashed, if_pos hf, h1, List.drop_left]
      rw [if_pos hf, hsq, h1] at *
      refine ⟨?_, ?_⟩
      · rw [List.append_nil]
        refine List.Sublist.trans ?_ (List.sublist_append_left d _)
        refine List.Sublist.trans ?_ ihs
        rw [List.map_append, ← List.append_assoc]; exact List.sublist_append_left _ _
      · rw [List.perm_iff_count] at ihp ⊢
        intro a
        have := ihp a
        simp only [List.map_append, List.count_append, List.count_nil] at this ⊢
        omega
    · rw [if_neg hf]
      cases hm : i.mispred with
      | some r =>
        have hr := h2 (by rw [hm]; rfl)
        have hdis : dispatched i = [] := filterMap_none (hv.mispred r hm).2
        have hsq : squashed L s i = (insts L s).drop (upTo r (insts L s)).length := by
          rw [squashed, if_neg hf, hm]
        have hpre := upTo_prefix r (insts L s)
        simp only [hr, hdis, hsq, List.map_nil, List.append_nil]
        refine ⟨?_, ?_⟩
        · refine List.Sublist.trans ?_ ihs
          conv => rhs; rw [← hpre, List.map_append, ← List.append_assoc]
          exact List.sublist_append_left _ _
        · rw [List.perm_iff_count] at ihp ⊢
          intro a
          have := ihp a
          rw [← hpre] at this
          simp only [List.map_append, List.count_append] at this ⊢
          omega
      | none =>
        have hsq : squashed L s i = [] := by rw [squashed, if_neg hf, hm]
        simp only [hsq, List.map_nil, List.append_nil]
        rw [h1] at ihs ihp
        refine ⟨?_, ?_⟩
        · have : c ++ (retired s i).map (·.id) ++ (rest.map (·.id) ++ (dispatched i).map (·.id)) =
              (c ++ (retired s i ++ rest).map (·.id)) ++ (dispatched i).map (·.id) := by
            simp [List.append_assoc]
          rw [this]
          exact ihs.append (List.Sublist.refl _)
        · rw [List.perm_iff_count] at ihp ⊢
          intro a
          have := ihp a
          simp only [List.map_append, List.count_append] at this ⊢
          omega

/-! ### Retirement -/

theorem insts_cons {s W} (h : RInv B L s W) {k u} (hf : firstValid (s.rows s.deq) = some (k, u)) :
    ∃ rest, insts L s = u :: rest := by
  obtain ⟨e1, e2⟩ := firstValid_some hf
  have hmem := List.mem_of_getElem? e1
  rw [rinv_insts h]
  cases W with
  | nil =>
    have := h.out 0 (by simp) (by have := h.deqLt; omega)
    rw [Nat.add_zero, Nat.mod_eq_of_lt h.deqLt] at this
    have := this _ hmem
    cases this
  | cons row W =>
    have hrow : s.rows s.deq = row := by
      have := h.win; rw [List.length_cons, ring, List.cons.injEq] at this; exact this.1
    rw [content_cons, ← hrow, e2]
    exact ⟨_, rfl⟩

theorem retire_cases {s W} (h : RInv B L s W) (i : Input) :
    (retired s i = [] ∧ flushed s i = false) ∨
    (retired s i ≠ [] ∧ i.intReq = false ∧ flushed s i = false ∧
      (∀ u ∈ retired s i, complete u = true ∧ isFlush u = false) ∧ i.mispred = none) ∨
    (∃ u rest, retired s i = [u] ∧ insts L s = u :: rest ∧ (i.intReq = false → complete u = true) ∧
      flushed s i = (isFlush u || i.intReq) ∧ i.mispred = none) := by
  rcases arbitrate_cases (s.rows s.deq) (isEmpty s) i.mispred.isSome i.frontStall i.intReq i.storePending with
    h1 | ⟨h1, h2, h3, h4, h5⟩ | ⟨k, u, int, h1, h2, h3, h4, h5⟩
  · left
    change decision s i = _ at h1
    rw [retired, flushed, h1]; exact ⟨rfl, rfl⟩
  · change decision s i = _ at h1
    have hret : retired s i = (s.rows s.deq).filterMap id := by rw [retired, h1]; rfl
    have hfl : flushed s i = false := by rw [flushed, h1]; rfl
    by_cases hn : retired s i = []
    · left; exact ⟨hn, hfl⟩
    · right; left
      have hmem : ∀ u ∈ retired s i, some u ∈ s.rows s.deq := by
        intro u hu; rw [hret] at hu
        simp only [List.mem_filterMap, id_eq] at hu
        obtain ⟨o, ho, rfl⟩ := hu; exact ho
      obtain ⟨u, hu⟩ := List.exists_mem_of_ne_nil _ hn
      refine ⟨hn, (h5 u (hmem u hu)).2, hfl, fun v hv => ⟨?_, (h5 v (hmem v hv)).1⟩, ?_⟩
      · have := List.all_eq_true.1 h4 _ (hmem v hv)
        simpa using this
      · cases hm : i.mispred with
        | none => rfl
        | some r => rw [hm] at h3; cases h3
  · right; right
    change decision s i = _ at h1
    obtain ⟨e1, e2⟩ := firstValid_some h2
    obtain ⟨rest, hr⟩ := insts_cons h h2
    subst h4
    refine ⟨u, rest, ?_, hr, h5, ?_, ?_⟩
    · rw [retired, h1, commits, e1]; rfl
    · simp only [flushed, h1, flushOut, e1, Option.bind_some, id_eq]
    · cases hm : i.mispred with
      | none => rfl
      | some r => rw [hm] at h3; cases h3

/-! ### Age -/

theorem age_pairwise {s W} (h : RInv B L s W) :
    (insts L s).Pairwise (fun u v => younger v u = true ∧ younger u v = false) := by
  have hL := h.deqLt
  have hlen := h.len
  rw [rinv_insts h, content, List.pairwise_filterMap]
  rw [List.pairwise_flatten]
  have hcB : ∀ k (b : Nat) (u : Uop), (s.rows ((s.deq + k) % L))[b]? = some (some u) → b < B := by
    intro k b u hu
    have := (List.getElem?_eq_some_iff.1 hu).1
    rw [h.rowLen] at this; exact this
  constructor
  · intro row hrow
    rw [← h.win] at hrow
    obtain ⟨k, hk, rfl⟩ := (mem_ring L s.rows _ _ hL).1 hrow
    rw [List.pairwise_iff_getElem]
    intro i j hi hj hij u hu v hv
    have hu' : (s.rows ((s.deq + k) % L))[i]? = some (some u) := by
      rw [List.getElem?_eq_getElem hi]; simp only [id_eq] at hu; rw [hu]
    have hv' : (s.rows ((s.deq + k) % L))[j]? = some (some v) := by
      rw [List.getElem?_eq_getElem hj]; simp only [id_eq] at hv; rw [hv]
    have lu := h.loc k hk i u hu'
    have lv := h.loc k hk j v hv'
    simp only [younger, lu.2, lv.2, lu.1, lv.1, beq_self_eq_true, if_true, decide_eq_true_eq, decide_eq_false_iff_not]
    omega
  · rw [List.pairwise_iff_getElem]
    intro i j hi hj hij x hx y hy u hu v hv
    simp only [id_eq] at hu hv
    subst hu; subst hv
    have hWi : W[i] = s.rows ((s.deq + i) % L) := by
      have := ring_getElem? L s.rows W.length s.deq i hL hi
      rw [h.win, List.getElem?_eq_getElem hi] at this
      exact Option.some.inj this
    have hWj : W[j] = s.rows ((s.deq + j) % L) := by
      have := ring_getElem? L s.rows W.length s.deq j hL hj
      rw [h.win, List.getElem?_eq_getElem hj] at this
      exact Option.some.inj this
    rw [hWi] at hx
    rw [hWj] at hy
    obtain ⟨b, hb⟩ := List.mem_iff_getElem?.1 hx
    obtain ⟨c, hc⟩ := List.mem_iff_getElem?.1 hy
    have hbB := hcB _ _ _ hb
    have hcB := hcB _ _ _ hc
    have lu := h.loc i hi b u hb
    have lv := h.loc j hj c v hc
    have hlt : ∀ {a a' : Nat} , a < a' → a * B + b < a' * B + c := by
      intro a a' ha
      have : (a + 1) * B ≤ a' * B := Nat.mul_le_mul_right _ ha
      rw [Nat.succ_mul] at this
      omega
    have hlt' : ∀ {a a' : Nat} , a < a' → a * B + c < a' * B + b := by
      intro a a' ha
      have : (a + 1) * B ≤ a' * B := Nat.mul_le_mul_right _ ha
      rw [Nat.succ_mul] at this
      omega
    simp only [younger, lu.2, lv.2, lu.1, lv.1]
    by_cases c1 : L ≤ s.deq + i
    · have c2 : L ≤ s.deq + j := by omega
      have e1 : (s.deq + i) % L = s.deq + i - L := by
        rw [Nat.mod_eq_sub_mod c1, Nat.mod_eq_of_lt (by omega)]
      have e2 : (s.deq + j) % L = s.deq + j - L := by
        rw [Nat.mod_eq_sub_mod c2, Nat.mod_eq_of_lt (by omega)]
      have := hlt (a := s.deq + i - L) (a' := s.deq + j - L) (by omega)
      simp only [c1, c2, e1, e2, decide_true, beq_self_eq_true, if_true, decide_eq_true_eq, decide_eq_false_iff_not]
      omega
    · have e1 : (s.deq + i) % L = s.deq + i := Nat.mod_eq_of_lt (by omega)
      by_cases c2 : L ≤ s.deq + j
      · have e2 : (s.deq + j) % L = s.deq + j - L := by
          rw [Nat.mod_eq_sub_mod c2, Nat.mod_eq_of_lt (by omega)]
        have := hlt' (a := s.deq + j - L) (a' := s.deq + i) (by omega)
        have hne : ((s.df ^^ false) == (s.df ^^ true)) = false := by cases s.df <;> rfl
        have hne' : ((s.df ^^ true) == (s.df ^^ false)) = false := by cases s.df <;> rfl
        simp only [c1, c2, e1, e2, decide_true, decide_false, hne, hne', Bool.false_eq_true, if_false, decide_eq_true_eq, decide_eq_false_iff_not]
        omega
      · have e2 : (s.deq + j) % L = s.deq + j := Nat.mod_eq_of_lt (by omega)
        have := hlt (a := s.deq + i) (a' := s.deq + j) (by omega)
        simp only [c1, c2, e1, e2, decide_false, beq_self_eq_true, if_true, decide_eq_true_eq, decide_eq_false_iff_not]
        omega

/-! ### Gate and progress -/

theorem fence_gate {s : State} {i : Input} {u : Uop} (hi : i.intReq = false) (hp : i.storePending = true)
    (hf : isFlush u = true) (hu : u ∈ retired s i) : isFence u = false := by
  rcases arbitrate_cases (s.rows s.deq) (isEmpty s) i.mispred.isSome i.frontStall i.intReq i.storePending with
    h1 | ⟨h1, h2, h3, h4, h5⟩ | ⟨k, v, int, h1, h2, h3, h4, h5⟩
  · change decision s i = _ at h1
    rw [retired, h1] at hu; cases hu
  · change decision s i = _ at h1
    rw [retired, h1] at hu
    simp only [commits, List.mem_filterMap, id_eq] at hu
    obtain ⟨o, ho, rfl⟩ := hu
    rw [(h5 u ho).1] at hf; cases hf
  · obtain ⟨e1, e2⟩ := firstValid_some h2
    have huv : u = v := by
      have h1' : decision s i = _ := h1
      rw [retired, h1', commits, e1] at hu
      simpa using hu
    subst huv
    cases hfe : isFence u with
    | false => rfl
    | true =>
      exfalso
      unfold arbitrate at h1
      rw [h3, hi, hp, h2] at h1
      simp [hfe, hf] at h1

theorem head_of_insts {s W} (h : RInv B L s W) {u rest} (hu : insts L s = u :: rest) :
    isEmpty s = false ∧ ∃ k, firstValid (s.rows s.deq) = some (k, u) := by
  rw [rinv_insts h] at hu
  cases W with
  | nil => cases hu
  | cons row W =>
    have hrow : s.rows s.deq = row := by
      have := h.win; rw [List.length_cons, ring, List.cons.injEq] at this; exact this.1
    refine ⟨?_, ?_⟩
    · cases he : isEmpty s with
      | false => rfl
      | true => have := (rinv_empty h).1 he; cases this
    · rw [hrow]
      obtain ⟨v, hv⟩ := h.ne row (List.mem_cons_self ..)
      cases hf : firstValid row with
      | none =>
        have := firstValid_none.1 hf _ hv
        cases this
      | some p =>
        obtain ⟨k, w⟩ := p
        obtain ⟨e1, e2⟩ := firstValid_some hf
        rw [content_cons, e2] at hu
        simp only [List.cons_append, List.cons.injEq] at hu
        exact ⟨k, by rw [hu.1]⟩

theorem progress {s W} (h : RInv B L s W) {i : Input} {u rest} (hu : insts L s = u :: rest)
    (hi : i.intReq = false) (hm : i.mispred = none) (hc : complete u = true)
    (hg : isFlush u = false ∨ isFence u = false ∨ i.storePending = false) : u ∈ retired s i := by
  obtain ⟨he, k, hf⟩ := head_of_insts h hu
  obtain ⟨e1, e2⟩ := firstValid_some hf
  have hmem := List.mem_of_getElem? e1
  have hd : decision s i = .group ∨ ∃ b, decision s i = .single k b := by
    unfold decision arbitrate
    simp only [hm, hi, he, hf, hc, Option.isSome_none, Bool.false_eq_true, if_false, Bool.not_false,
      Bool.not_true, Bool.and_false, Bool.true_and, Bool.and_true, Bool.or_false]
    by_cases hgate : (isFence u && i.storePending) = true
    · have hnf : isFlush u = false := by
        simp only [Bool.and_eq_true] at hgate
        rcases hg with hg | hg | hg
        · exact hg
        · rw [hgate.1] at hg; cases hg
        · rw [hgate.2] at hg; cases hg
      right
      simp [hgate, hnf]
    · have hgate' : (isFence u && i.storePending) = false := by simpa using hgate
      simp only [hgate', Bool.not_false, Bool.and_true]
      generalize hsg : ((s.rows s.deq).any fun o => o.any fun u => isFlush u || isFence u || isWfi u) = sg
      generalize (!((s.rows s.deq).any Option.isSome && i.frontStall) && (s.rows s.deq).all fun o => o.all complete) = cm
      cases sg with
      | true => right; simp
      | false =>
        have hnf : isFlush u = false := by
          rw [List.any_eq_false] at hsg
          have := hsg _ hmem
          simp only [Option.any_some, Bool.or_eq_true, not_or, Bool.not_eq_true] at this
          exact this.1.1
        cases cm with
        | true => left; simp
        | false => right; simp [hnf]
  rcases hd with hd | ⟨b, hd⟩
  · rw [retired, hd]
    exact List.mem_filterMap.2 ⟨some u, hmem, rfl⟩
  · rw [retired, hd, commits, e1]; simp

theorem interrupt_fire {s W} (h : RInv B L s W) {i : Input} {u rest} (hu : insts L s = u :: rest)
    (hi : i.intReq = true) (hm : i.mispred = none) : retired s i = [u] ∧ flushed s i = true := by
  obtain ⟨he, k, hf⟩ := head_of_insts h hu
  obtain ⟨e1, e2⟩ := firstValid_some hf
  have hmem := List.mem_of_getElem? e1
  have hany : ((s.rows s.deq).any fun o => (o.any fun u => isFlush u || isFence u || isWfi u) || true) = true := by
    rw [List.any_eq_true]; exact ⟨_, hmem, by simp⟩
  have hd : decision s i = .single k true := by
    unfold decision arbitrate
    simp only [hm, hi, he, hf, hany, Option.isSome_none, Bool.false_eq_true, if_false]
    simp
  constructor
  · rw [retired, hd, commits, e1]; rfl
  · simp only [flushed, hd, flushOut, e1, Option.bind_some, id_eq]; simp

end Verif.Proofs.Rob

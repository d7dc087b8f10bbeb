import Verif.Spec.RenWindow
import Verif.Proofs.Ring
/- Invariant of the rename stage. -/
namespace Verif.Proofs.Ren
open Verif.Ren Verif.RenWindow Verif.Ring

def apply (m : Nat → Nat) (e : Entry) : Nat → Nat := if e.destEn then upd m e.areg e.preg else m
def applyAll (m : Nat → Nat) (l : List Entry) : Nat → Nat := l.foldl apply m
def nxt (P h : Nat) (e : Entry) : Nat := if e.destEn then inc P h else h

def Chain (P A N : Nat) (ck : Nat → Nat → Nat) (ckh : Nat → Nat) :
    (Nat → Nat) → Nat → List Entry → Prop
  | _, _, [] => True
  | m, h, e :: r =>
    (e.destEn = true → 0 < e.areg ∧ e.areg < A ∧ e.old = m e.areg) ∧
    (∀ t, e.tag = some t → 0 < t ∧ t < N ∧ ck t = apply m e ∧ ckh t = nxt P h e) ∧
    Chain P A N ck ckh (apply m e) (nxt P h e) r

theorem applyAll_append (m l r) : applyAll m (l ++ r) = applyAll (applyAll m l) r := by
  simp [applyAll]

theorem applyAll_cons (m e r) : applyAll m (e :: r) = applyAll (apply m e) r := rfl

theorem pregs_append (l r) : pregs (l ++ r) = pregs l ++ pregs r := by simp [pregs]
theorem olds_append (l r) : olds (l ++ r) = olds l ++ olds r := by simp [olds]

theorem pregs_cons (e r) : pregs (e :: r) = (if e.destEn then [e.preg] else []) ++ pregs r := by
  simp only [pregs, List.filter_cons]; split <;> simp
theorem olds_cons (e r) : olds (e :: r) = (if e.destEn then [e.old] else []) ++ olds r := by
  simp only [olds, List.filter_cons]; split <;> simp

theorem applyAll_eq (l : List Entry) : ∀ m a, applyAll m l a = (lastWriter l a).getD (m a) := by
  induction l with
  | nil => intro m a; rfl
  | cons e r ih =>
    intro m a
    rw [applyAll_cons, ih]
    simp only [lastWriter, List.reverse_cons, List.find?_append]
    cases hf : r.reverse.find? (fun e => e.destEn && e.areg == a) with
    | some x => simp
    | none =>
      simp only [Option.map_none, Option.getD_none, Option.none_or, apply]
      by_cases hd : e.destEn
      · by_cases ha : e.areg = a
        · simp [hd, ha, upd]
        · have : ¬ a = e.areg := fun h => ha h.symm
          simp [hd, ha, upd, this]
      · simp [hd]

/-! ### Permutations -/

theorem map_upd_perm {A : Nat} (f : Nat → Nat) {a : Nat} (v : Nat) (ha : a < A) :
    ((List.range A).map (upd f a v) ++ [f a]).Perm ((List.range A).map f ++ [v]) := by
  have hm : a ∈ List.range A := List.mem_range.2 ha
  obtain ⟨l, r, hlr⟩ := List.append_of_mem hm
  have nd : (List.range A).Nodup := List.nodup_range
  rw [hlr] at nd ⊢
  have nd' := List.nodup_append.1 nd
  have hl : l.map (upd f a v) = l.map f := List.map_congr_left fun x hx => by
    have : x ≠ a := nd'.2.2 x hx a (by simp)
    simp [upd, this]
  have hr : r.map (upd f a v) = r.map f := List.map_congr_left fun x hx => by
    have : a ∉ r := (List.nodup_cons.1 nd'.2.1).1
    have : x ≠ a := fun h => this (h ▸ hx)
    simp [upd, this]
  simp only [List.map_append, List.map_cons, hl, hr, upd, if_true]
  rw [List.append_assoc, List.append_assoc]
  refine List.Perm.append_left _ ?_
  simp only [List.cons_append]
  have e1 : (v :: (r.map f ++ [f a])).Perm (v :: f a :: r.map f) :=
    List.Perm.cons _ (List.perm_append_singleton _ _)
  have e2 : (f a :: (r.map f ++ [v])).Perm (f a :: v :: r.map f) :=
    List.Perm.cons _ (List.perm_append_singleton _ _)
  exact e1.trans ((List.Perm.swap _ _ _).trans e2.symm)

theorem chain_perm {P A N ck ckh} : ∀ (w : List Entry) m h, Chain P A N ck ckh m h w →
    ((List.range A).map (applyAll m w) ++ olds w).Perm ((List.range A).map m ++ pregs w)
  | [], m, h, _ => List.Perm.refl _
  | e :: r, m, h, hc => by
    obtain ⟨h1, _, h3⟩ := hc
    have ih := chain_perm r _ _ h3
    rw [applyAll_cons, olds_cons, pregs_cons]
    by_cases hd : e.destEn
    · obtain ⟨_, ha, ho⟩ := h1 hd
      simp only [hd, if_true]
      have e1 : ((List.range A).map (applyAll (apply m e) r) ++ ([e.old] ++ olds r)).Perm
          (((List.range A).map (applyAll (apply m e) r) ++ olds r) ++ [e.old]) := by
        rw [List.append_assoc]; exact List.Perm.append_left _ List.perm_append_comm
      have e2 := ih.append_right [e.old]
      have e3 : (((List.range A).map (apply m e) ++ pregs r) ++ [e.old]).Perm
          (((List.range A).map (apply m e) ++ [e.old]) ++ pregs r) := by
        rw [List.append_assoc, List.append_assoc]; exact List.Perm.append_left _ List.perm_append_comm
      have e4 : ((List.range A).map (apply m e) ++ [e.old]).Perm ((List.range A).map m ++ [e.preg]) := by
        rw [ho, apply, if_pos hd]; exact map_upd_perm m e.preg ha
      have e5 := e4.append_right (pregs r)
      refine (e1.trans (e2.trans (e3.trans e5))).trans ?_
      rw [List.append_assoc]
    · have : apply m e = m := by simp [apply, hd]
      simp only [hd, this, Bool.false_eq_true, if_false, List.nil_append] at ih ⊢
      exact ih

/-! ### The invariant -/

structure RInv (P A N : Nat) (R : Regs) (w : List Entry) : Prop where
  hcLt : R.hc < P
  headEq : R.head = (R.hc + (pregs w).length) % P
  tailEq : R.tail = (R.hc + (P - A)) % P
  le : (pregs w).length ≤ P - A
  specEq : R.spec = applyAll R.arch w
  chain : Chain P A N R.ck R.ckHead R.arch R.hc w
  ringEq : ring P R.fl R.hc (pregs w).length = pregs w
  perm : ((List.range A).map R.arch ++ ring P R.fl R.hc (P - A)).Perm (List.range P)
  arch0 : R.arch 0 = 0
  ok : R.ok = true

variable {P A N : Nat}

theorem chain_append {ck ckh} : ∀ (l r : List Entry) m h (_ : h < P),
    Chain P A N ck ckh m h (l ++ r) ↔
      Chain P A N ck ckh m h l ∧ Chain P A N ck ckh (applyAll m l) ((h + (pregs l).length) % P) r
  | [], r, m, h, hh => by simp [Chain, applyAll, pregs, Nat.mod_eq_of_lt hh]
  | e :: l, r, m, h, hh => by
    have hn : nxt P h e < P := by rw [nxt]; split; exact inc_lt (by omega); exact hh
    rw [List.cons_append, Chain, Chain, chain_append l r _ _ hn, applyAll_cons, pregs_cons]
    have : (nxt P h e + (pregs l).length) % P
        = (h + ((if e.destEn then [e.preg] else []) ++ pregs l).length) % P := by
      by_cases hd : e.destEn
      · simp only [nxt, hd, if_true, inc_add, List.length_append, List.length_cons, List.length_nil]
        congr 2; omega
      · simp [nxt, hd]
    rw [this]
    constructor
    · rintro ⟨a, b, c, d⟩; exact ⟨⟨a, b, c⟩, d⟩
    · rintro ⟨⟨a, b, c⟩, d⟩; exact ⟨a, b, c, d⟩

theorem chain_congr {ck ckh ck' ckh'} : ∀ (w : List Entry) m h,
    (∀ e ∈ w, ∀ t, e.tag = some t → ck' t = ck t ∧ ckh' t = ckh t) →
    Chain P A N ck ckh m h w → Chain P A N ck' ckh' m h w
  | [], _, _, _, _ => trivial
  | e :: r, m, h, hag, ⟨a, b, c⟩ => by
    refine ⟨a, fun t ht => ?_, chain_congr r _ _ (fun e he => hag e (List.mem_cons_of_mem _ he)) c⟩
    obtain ⟨b1, b2, b3, b4⟩ := b t ht
    obtain ⟨h1, h2⟩ := hag e (List.mem_cons_self ..) t ht
    exact ⟨b1, b2, h1.trans b3, h2.trans b4⟩

theorem chain_survive {ck ckh} (c : Nat → Bool) : ∀ (w : List Entry) m h,
    Chain P A N ck ckh m h w → Chain P A N ck ckh m h (w.map (survive c))
  | [], _, _, _ => trivial
  | e :: r, m, h, ⟨a, b, d⟩ => by
    refine ⟨a, fun t ht => b t ?_, chain_survive c r _ _ d⟩
    rw [survive, Option.filter_eq_some_iff] at ht
    exact ht.1

theorem pregs_survive (c) (w) : pregs (w.map (survive c)) = pregs w := by
  induction w with
  | nil => rfl
  | cons e r ih => rw [List.map_cons, pregs_cons, pregs_cons, ih]; rfl

theorem applyAll_survive (c) (w) : ∀ m, applyAll m (w.map (survive c)) = applyAll m w := by
  induction w with
  | nil => intro m; rfl
  | cons e r ih => intro m; rw [List.map_cons, applyAll_cons, applyAll_cons, ih]; rfl

theorem rinv_survive (c : Nat → Bool) {R w} (h : RInv P A N R w) : RInv P A N R (w.map (survive c)) := by
  refine { h with headEq := ?_, le := ?_, specEq := ?_, chain := chain_survive c _ _ _ h.chain, ringEq := ?_ }
  all_goals simp only [pregs_survive, applyAll_survive]
  · exact h.headEq
  · exact h.le
  · exact h.specEq
  · exact h.ringEq

theorem rinv_sanity (hA : 0 < A) {R w} (h : RInv P A N R w) :
    sanity P A R.head R.hc R.tail = true := by
  have hP : 0 < P := by have := h.hcLt; omega
  have hhl : R.head < P := by rw [h.headEq]; exact Nat.mod_lt _ hP
  have htl : R.tail < P := by rw [h.tailEq]; exact Nat.mod_lt _ hP
  have d2 : ringDist P R.hc R.head = (pregs w).length := by
    rw [h.headEq]; exact ringDist_add h.hcLt (by have := h.le; omega)
  have le := h.le
  have d1 : ringDist P R.head R.tail = P - A - (pregs w).length := by
    have : R.tail = (R.head + (P - A - (pregs w).length)) % P := by
      rw [h.tailEq, h.headEq, Nat.mod_add_mod]; congr 1; omega
    rw [this]; exact ringDist_add hhl (by omega)
  simp only [sanity, Bool.and_eq_true, decide_eq_true_eq, d1, d2]
  have := h.hcLt
  refine ⟨⟨⟨⟨⟨hhl, h.hcLt⟩, htl⟩, ?_⟩, ?_⟩, ?_⟩ <;> omega

theorem dist_free (hA : 0 < A) {R w} (h : RInv P A N R w) :
    ringDist P R.head R.tail = P - A - (pregs w).length := by
  have hP : 0 < P := by have := h.hcLt; omega
  have hhl : R.head < P := by rw [h.headEq]; exact Nat.mod_lt _ hP
  have le := h.le
  have : R.tail = (R.head + (P - A - (pregs w).length)) % P := by
    rw [h.tailEq, h.headEq, Nat.mod_add_mod]; congr 1; omega
  rw [this]; exact ringDist_add hhl (by omega)

theorem ring_split (hA : 0 < A) {R w} (h : RInv P A N R w) :
    ring P R.fl R.hc (P - A) = pregs w ++ free P R := by
  have le := h.le
  rw [free, dist_free hA h]
  have : P - A = (pregs w).length + (P - A - (pregs w).length) := by omega
  conv => lhs; rw [this, ring_append P R.fl h.hcLt, h.ringEq, ← h.headEq]

/-! ### Renaming a group -/

/-- What the slots of a group must look like, given the map, the free list and its head and count. -/
def Good (P A N : Nat) (fl : Nat → Nat) : (Nat → Nat) → Nat → Nat → List Slot → Prop
  | _, _, _, [] => True
  | m, h, c, sl :: r =>
    (sl.valid = true → ∃ i, sl.inst = some i ∧ WfInst A N i ∧
        sl.p1 = m i.src1 ∧ sl.p2 = m i.src2 ∧ sl.old = m i.areg ∧
        (i.destEn = true → 0 < c ∧ sl.dest = fl h)) ∧
    match toEntry sl with
    | none => Good P A N fl m h c r
    | some e => Good P A N fl (apply m e) (nxt P h e) (if e.destEn then c - 1 else c) r

theorem good_quiet (fl) : ∀ (l : List Slot) m h c, (∀ sl ∈ l, sl.valid = false) → Good P A N fl m h c l
  | [], _, _, _, _ => trivial
  | sl :: r, m, h, c, hq => by
    have h0 := hq sl (List.mem_cons_self ..)
    have : toEntry sl = none := by rw [toEntry]; cases sl.inst <;> simp [h0]
    rw [Good, this]
    exact ⟨fun h' => by simp [h0] at h', good_quiet fl r _ _ _ fun x hx => hq x (List.mem_cons_of_mem _ hx)⟩

theorem validLoop_stall : ∀ (is : List (Option Inst)) as, ∀ v ∈ validLoop true is as, v = false
  | [], as, v, hv => by cases as <;> simp [validLoop] at hv
  | none :: is, [], v, hv => by simp [validLoop] at hv
  | some i :: is, [], v, hv => by simp [validLoop] at hv
  | none :: is, a :: as, v, hv => by
    simp only [validLoop, List.mem_cons] at hv
    exact hv.elim id (validLoop_stall is as v)
  | some i :: is, (b, x) :: as, v, hv => by
    simp only [validLoop, Bool.not_true, Bool.and_false, Bool.false_eq_true, if_false] at hv
    split at hv
    · simp only [List.mem_cons] at hv; exact hv.elim id (validLoop_stall is as v)
    · simp only [List.mem_cons] at hv; exact hv.elim id (validLoop_stall is as v)

theorem renameLoop_quiet (spec) : ∀ (is : List (Option Inst)) prior as vs,
    (∀ v ∈ vs, v = false) → ∀ sl ∈ renameLoop spec prior is as vs, sl.valid = false
  | [], _, _, _, _, sl, h => by simp [renameLoop] at h
  | i :: is, prior, [], _, _, sl, h => by simp [renameLoop] at h
  | i :: is, prior, a :: as, [], _, sl, h => by simp [renameLoop] at h
  | i :: is, prior, (b, r) :: as, v :: vs, hv, sl, h => by
    simp only [renameLoop, List.mem_cons] at h
    rcases h with h | h
    · rw [h]; exact hv v (List.mem_cons_self ..)
    · exact renameLoop_quiet spec is _ as vs (fun x hx => hv x (List.mem_cons_of_mem _ hx)) sl h

theorem lookup_snoc (spec prior o r a) : lookup spec (prior ++ [(o, r)]) a =
    match o with
    | none => lookup spec prior a
    | some j => if !j.destEn then lookup spec prior a else if j.areg = 0 then lookup spec prior a
                else if a = j.areg then r else lookup spec prior a := by
  simp only [lookup, List.foldl_append, List.foldl_cons, List.foldl_nil]
  cases o <;> rfl

theorem rename_good (fl spec) : ∀ (is : List (Option Inst)) prior m h c,
    (∀ a, lookup spec prior a = m a) → (∀ d, some d ∈ is → WfInst A N d) →
    Good P A N fl m h c (renameLoop spec prior is (allocLoop P fl h c is)
      (validLoop false is (allocLoop P fl h c is)))
  | [], _, _, _, _, _, _ => by simp [renameLoop, Good]
  | none :: is, prior, m, h, c, hl, hw => by
    simp only [allocLoop, validLoop, renameLoop, Good, toEntry, Bool.false_eq_true, false_imp_iff, true_and]
    refine rename_good fl spec is _ m h c (fun a => ?_) (fun d hd => hw d (List.mem_cons_of_mem _ hd))
    rw [lookup_snoc]; exact hl a
  | some i :: is, prior, m, h, c, hl, hw => by
    have hwi := hw i (List.mem_cons_self ..)
    have hw' : ∀ d, some d ∈ is → WfInst A N d := fun d hd => hw d (List.mem_cons_of_mem _ hd)
    by_cases hd : i.destEn
    · by_cases hc : 0 < c
      · have hne : ¬ i.areg = 0 := by have := (hwi.1 hd).1; omega
        simp only [allocLoop, hd, hc, decide_true, Bool.and_self, if_true, validLoop, Bool.not_false,
          renameLoop, Good, toEntry, Bool.not_true]
        refine ⟨fun _ => ⟨i, rfl, hwi, hl _, hl _, hl _, fun _ => by simp⟩, ?_⟩
        have := rename_good fl spec is (prior ++ [(some i, fl h)]) (upd m i.areg (fl h)) (inc P h) (c - 1)
          (fun a => by
            rw [lookup_snoc]; simp only [hd, Bool.not_true, Bool.false_eq_true, if_false, hne, hl, upd]) hw'
        simpa only [apply, nxt, if_true] using this
      · have h0 : ¬ (0 < c) := hc
        simp only [allocLoop, hd, h0, decide_false, Bool.and_false, Bool.false_eq_true, if_false,
          validLoop, Bool.not_false, Bool.and_self, if_true, renameLoop, Good, toEntry,
          false_imp_iff, true_and]
        exact good_quiet fl _ _ _ _ (renameLoop_quiet spec is _ _ _ (validLoop_stall is _))
    · have hd' : i.destEn = false := by simpa using hd
      simp only [allocLoop, hd', Bool.false_and, Bool.false_eq_true, if_false, validLoop,
        Bool.not_false, if_true, renameLoop, Good, toEntry]
      refine ⟨fun _ => ⟨i, rfl, hwi, hl _, hl _, hl _, fun h' => absurd h' hd⟩, ?_⟩
      have := rename_good fl spec is (prior ++ [(some i, 0)]) m h c
        (fun a => by rw [lookup_snoc]; simp only [hd', Bool.not_false, if_true, hl]) hw'
      simpa only [apply, nxt, Bool.false_eq_true, if_false] using this

/-! ### Firing -/

theorem entries_cons (sl r) : entries (sl :: r) = (toEntry sl).toList ++ entries r := by
  rw [entries, List.filterMap_cons]
  cases toEntry sl <;> rfl

/-- Renaming one instruction. -/
theorem rinv_fire (hA : 0 < A) {R w} (h : RInv P A N R w) {sl : Slot} {i : Inst}
    (hi : sl.inst = some i) (hv : sl.valid = true) (hwf : WfInst A N i)
    (hold : sl.old = R.spec i.areg)
    (hd : i.destEn = true → 0 < ringDist P R.head R.tail ∧ sl.dest = R.fl R.head)
    (hfresh : i.isBr = true → ∀ e ∈ w, e.tag ≠ some i.brId) :
    RInv P A N (fireOne P N true R sl) (w ++ entries [sl]) ∧
      (fireOne P N true R sl).fl = R.fl ∧ (fireOne P N true R sl).tail = R.tail ∧
      ∃ e, toEntry sl = some e ∧ (fireOne P N true R sl).spec = apply R.spec e ∧
        (fireOne P N true R sl).head = nxt P R.head e := by
  have hP : 0 < P := by have := h.hcLt; omega
  have hte : toEntry sl = some ⟨i.destEn, i.areg, sl.dest, sl.old, if i.isBr then some i.brId else none⟩ := by
    simp [toEntry, hi, hv]
  have hes : entries [sl] = [⟨i.destEn, i.areg, sl.dest, sl.old, if i.isBr then some i.brId else none⟩] := by
    rw [entries_cons, hte]; rfl
  rw [hes]
  -- effect of the allocation half
  let R1 : Regs := if i.destEn then
        { R with ok := R.ok && decide (R.head ≠ R.tail)
                 spec := upd R.spec i.areg sl.dest
                 head := inc P R.head }
      else R
  have hR1 : fireOne P N true R sl = if i.isBr then
      { R1 with ok := R1.ok && decide (i.brId < N)
                ck := upd R1.ck i.brId R1.spec
                ckHead := upd R1.ckHead i.brId R1.head } else R1 := by
    simp only [fireOne, hi, fires, hv, Bool.and_self, Bool.true_and, R1]
  have hdf := dist_free hA h
  let e : Entry := ⟨i.destEn, i.areg, sl.dest, sl.old, if i.isBr then some i.brId else none⟩
  have hsp : R1.spec = apply R.spec e := by
    simp only [R1, apply, e]; split <;> rfl
  have hhd : R1.head = nxt P R.head e := by
    simp only [R1, nxt, e]; split <;> rfl
  have hfl : R1.fl = R.fl := by simp only [R1]; split <;> rfl
  have htl : R1.tail = R.tail := by simp only [R1]; split <;> rfl
  have hhc : R1.hc = R.hc := by simp only [R1]; split <;> rfl
  have har : R1.arch = R.arch := by simp only [R1]; split <;> rfl
  have hck : R1.ck = R.ck := by simp only [R1]; split <;> rfl
  have hckh : R1.ckHead = R.ckHead := by simp only [R1]; split <;> rfl
  have hok : R1.ok = true := by
    simp only [R1]; split
    · rename_i hde
      have h1 := (hd hde).1
      have : R.head ≠ R.tail := by
        intro h'; rw [h', ringDist, if_neg (by omega)] at h1; omega
      simp [h.ok, this]
    · exact h.ok
  have hlen : (pregs [e]).length ≤ P - A - (pregs w).length := by
    rw [pregs_cons]
    by_cases hde : i.destEn
    · have h1 := (hd hde).1; rw [hdf] at h1; simp only [e, hde, if_true, List.length_append, List.length_cons, List.length_nil]; show 0 + 1 + 0 ≤ _; omega
    · simp [e, hde, pregs]
  have hlen2 : ∀ x, (if e.destEn then inc P x else x) = (x + (pregs [e]).length) % P ∨ ¬ x < P := by
    intro x
    by_cases hx : x < P
    · left; rw [pregs_cons]; by_cases hde : e.destEn <;> simp [hde, pregs, inc, Nat.mod_eq_of_lt hx]
    · right; exact hx
  have hhl : R.head < P := by rw [h.headEq]; exact Nat.mod_lt _ hP
  have hhead : R1.head = (R.hc + (pregs (w ++ [e])).length) % P := by
    rw [hhd, nxt, (hlen2 R.head).resolve_right (by simpa using hhl), h.headEq, Nat.mod_add_mod, pregs_append]
    congr 1; simp only [List.length_append]; omega
  have hring : ring P R.fl R.hc (pregs (w ++ [e])).length = pregs (w ++ [e]) := by
    rw [pregs_append, List.length_append, ring_append P _ h.hcLt, h.ringEq]
    congr 1
    rw [pregs_cons]
    by_cases hde : i.destEn
    · have := (hd hde).2
      simp [e, hde, pregs, ring, this, h.headEq]
    · simp [e, hde, pregs, ring]
  have hchain0 : ∀ ck ckh, Chain P A N ck ckh R.arch R.hc w →
      (i.isBr = true → ck i.brId = R1.spec ∧ ckh i.brId = R1.head) →
      Chain P A N ck ckh R.arch R.hc (w ++ [e]) := by
    intro ck ckh hcw hb
    rw [chain_append _ _ _ _ h.hcLt]
    refine ⟨hcw, ?_, ?_, trivial⟩
    · intro hde
      exact ⟨(hwf.1 hde).1, (hwf.1 hde).2, by rw [← h.specEq]; exact hold⟩
    · intro t ht
      by_cases hb' : i.isBr = true
      · have : i.brId = t := by simpa [e, hb'] using ht
        subst this
        obtain ⟨b1, b2⟩ := hb hb'
        refine ⟨(hwf.2 hb').1, (hwf.2 hb').2, ?_, ?_⟩
        · rw [b1, hsp, h.specEq]
        · rw [b2, hhd, h.headEq]
      · simp [e, hb'] at ht
  have common : ∀ R2 : Regs, R2.fl = R1.fl → R2.head = R1.head → R2.tail = R1.tail → R2.hc = R1.hc →
      R2.arch = R1.arch → R2.spec = R1.spec → R2.ok = true →
      Chain P A N R2.ck R2.ckHead R.arch R.hc (w ++ [e]) → RInv P A N R2 (w ++ [e]) := by
    intro R2 e1 e2 e3 e4 e5 e6 e7 e8
    refine ⟨?_, ?_, ?_, ?_, ?_, ?_, ?_, ?_, ?_, e7⟩
    · rw [e4, hhc]; exact h.hcLt
    · rw [e2, e4, hhc, hhead]
    · rw [e3, e4, hhc, htl]; exact h.tailEq
    · rw [pregs_append, List.length_append]; have := h.le; omega
    · rw [e6, e5, har, hsp, applyAll_append, ← h.specEq]; rfl
    · rw [e5, har, e4, hhc]; exact e8
    · rw [e1, hfl, e4, hhc]; exact hring
    · rw [e5, har, e1, hfl, e4, hhc]; exact h.perm
    · rw [e5, har]; exact h.arch0
  rw [hR1]
  by_cases hb : i.isBr = true
  · rw [if_pos hb]
    refine ⟨common _ rfl rfl rfl rfl rfl rfl ?_ ?_, hfl, htl, e, hte, hsp, hhd⟩
    · simp [hok, (hwf.2 hb).2]
    · refine hchain0 _ _ (chain_congr w _ _ ?_ h.chain) (fun _ => by simp [upd])
      intro x hx t ht
      have : t ≠ i.brId := fun h' => hfresh hb x hx (h' ▸ ht)
      simp [upd, this, hck, hckh]
  · rw [if_neg hb]
    refine ⟨common _ rfl rfl rfl rfl rfl rfl hok ?_, hfl, htl, e, hte, hsp, hhd⟩
    refine hchain0 _ _ ?_ (fun h' => absurd h' hb)
    rw [hck, hckh]; exact h.chain

def entryTags (l : List Entry) : List Nat := l.filterMap Entry.tag

theorem rinv_fireAll (hA : 0 < A) : ∀ (slots : List Slot) R w, RInv P A N R w →
    Good P A N R.fl R.spec R.head (ringDist P R.head R.tail) slots →
    (∀ e ∈ entries slots, ∀ t, e.tag = some t → ∀ x ∈ w, x.tag ≠ some t) →
    (entryTags (entries slots)).Nodup →
    RInv P A N (slots.foldl (fireOne P N true) R) (w ++ entries slots)
  | [], R, w, h, _, _, _ => by simpa [entries] using h
  | sl :: r, R, w, h, hg, hf, hn => by
    obtain ⟨hg1, hg2⟩ := hg
    rw [List.foldl_cons]
    by_cases hv : sl.valid = true
    · obtain ⟨i, hi, hwf, _, _, hold, hd⟩ := hg1 hv
      have hte : toEntry sl = some ⟨i.destEn, i.areg, sl.dest, sl.old, if i.isBr then some i.brId else none⟩ := by
        simp [toEntry, hi, hv]
      have key := rinv_fire hA h hi hv hwf hold hd (fun hb x hx => by
        refine hf _ (by rw [entries_cons, hte]; exact List.mem_cons_self ..) i.brId (by simp [hb]) x hx)
      obtain ⟨k1, k2, k3, e, k4, k5, k6⟩ := key
      have hcount : ringDist P (fireOne P N true R sl).head (fireOne P N true R sl).tail =
          if e.destEn then ringDist P R.head R.tail - 1 else ringDist P R.head R.tail := by
        have hes : entries [sl] = [e] := by rw [entries_cons, k4]; rfl
        have hnil : pregs [] = [] := rfl
        rw [dist_free hA k1, dist_free hA h, hes, pregs_append, List.length_append, pregs_cons, hnil,
          List.append_nil]
        split
        · simp only [List.length_cons, List.length_nil]; omega
        · simp only [List.length_nil]; omega
      rw [k4] at hg2
      have hw' : w ++ entries (sl :: r) = (w ++ entries [sl]) ++ entries r := by
        rw [entries_cons sl r, entries_cons sl []]; simp [entries]
      rw [hw']
      have hes : entries [sl] = [e] := by rw [entries_cons, k4]; rfl
      have hes' : entries (sl :: r) = e :: entries r := by rw [entries_cons, k4]; rfl
      rw [hes'] at hn hf
      refine rinv_fireAll hA r _ _ k1 ?_ ?_ ?_
      · rw [hcount, k2, k5, k6]; exact hg2
      · intro x hx t ht y hy hyt
        rcases List.mem_append.1 hy with hy | hy
        · exact hf x (List.mem_cons_of_mem _ hx) t ht y hy hyt
        · rw [hes, List.mem_singleton] at hy
          subst hy
          rw [entryTags, List.filterMap_cons_some hyt, List.nodup_cons] at hn
          exact hn.1 (List.mem_filterMap.2 ⟨x, hx, ht⟩)
      · rw [entryTags, List.filterMap_cons] at hn
        split at hn
        · exact hn
        · exact (List.nodup_cons.1 hn).2
    · have hv' : sl.valid = false := by simpa using hv
      have hte : toEntry sl = none := by rw [toEntry]; cases sl.inst <;> simp [hv']
      have hfo : fireOne P N true R sl = R := by
        rw [fireOne]; cases sl.inst <;> simp [fires, hv']
      have hes : entries (sl :: r) = entries r := by rw [entries_cons, hte]; rfl
      rw [hes] at hf hn ⊢
      rw [hfo]
      rw [hte] at hg2
      exact rinv_fireAll hA r R w h hg2 hf hn

theorem fire_not_ready : ∀ (slots : List Slot) R, slots.foldl (fireOne P N false) R = R
  | [], _ => rfl
  | sl :: r, R => by
    have : fireOne P N false R sl = R := by rw [fireOne]; cases sl.inst <;> simp [fires]
    rw [List.foldl_cons, this, fire_not_ready r R]

/-! ### Commit -/

theorem rinv_commitOne (hA : 0 < A) {R e w} (h : RInv P A N R (e :: w)) :
    RInv P A N (commitOne P false R (toCommit false e)) w ∧
      (commitOne P false R (toCommit false e)).arch = apply R.arch e := by
  have hP : 0 < P := by have := h.hcLt; omega
  obtain ⟨c1, c2, c3⟩ := h.chain
  by_cases hd : e.destEn = true
  · obtain ⟨a0, a1, a2⟩ := c1 hd
    have hpc : pregs (e :: w) = e.preg :: pregs w := by rw [pregs_cons]; simp [hd]
    have hle := h.le
    have hre := h.ringEq
    have hhe := h.headEq
    rw [hpc, List.length_cons] at hle hre hhe
    rw [ring, List.cons.injEq] at hre
    have happ : apply R.arch e = upd R.arch e.areg e.preg := by rw [apply, if_pos hd]
    have hnxt : nxt P R.hc e = inc P R.hc := by rw [nxt, if_pos hd]
    rw [happ, hnxt] at c3
    have hco : commitOne P false R (toCommit false e) =
        { R with ok := R.ok && decide (R.hc ≠ R.head)
                 fl := upd R.fl R.tail e.old
                 tail := inc P R.tail
                 hc := inc P R.hc
                 arch := upd R.arch e.areg e.preg } := by simp [commitOne, toCommit, hd]
    rw [hco, happ]
    have hinj : ∀ n, n + 1 = P - A →
        ring P (upd R.fl R.tail e.old) (inc P R.hc) (P - A) = ring P R.fl (inc P R.hc) n ++ [e.old] := by
      intro n hn
      rw [h.tailEq, ← hn]; exact ring_push P R.fl e.old h.hcLt (by omega)
    obtain ⟨n, hn⟩ : ∃ n, n + 1 = P - A := ⟨P - A - 1, by omega⟩
    refine ⟨⟨inc_lt hP, ?_, ?_, by omega, ?_, c3, ?_, ?_, ?_, ?_⟩, rfl⟩
    · show R.head = _; rw [hhe, inc_add]
    · show inc P R.tail = _
      rw [inc_add, inc, h.tailEq, Nat.mod_add_mod]; congr 1
    · show R.spec = _; rw [h.specEq, applyAll_cons, happ]
    · show ring P (upd R.fl R.tail e.old) (inc P R.hc) (pregs w).length = pregs w
      have hk : n = (pregs w).length + (n - (pregs w).length) := by omega
      have e1 := hinj n hn
      rw [hk, ring_append P _ (inc_lt hP), hre.2, ← hn] at e1
      have hk2 : n + 1 = (pregs w).length + (n + 1 - (pregs w).length) := by omega
      rw [hk2, ring_append P _ (inc_lt hP)] at e1
      have := List.append_inj_left (by rw [e1, List.append_assoc]) (ring_length P _ _ _)
      exact this
    · show (List.map (upd R.arch e.areg e.preg) (List.range A) ++ _).Perm _
      rw [hinj n hn]
      have hp := h.perm
      rw [← hn, ring, hre.1] at hp
      refine List.Perm.trans ?_ hp
      have e1 : (List.map (upd R.arch e.areg e.preg) (List.range A) ++ (ring P R.fl (inc P R.hc) n ++ [e.old])).Perm
          ((List.map (upd R.arch e.areg e.preg) (List.range A) ++ [e.old]) ++ ring P R.fl (inc P R.hc) n) := by
        rw [List.append_assoc]; exact List.Perm.append_left _ List.perm_append_comm
      have e2 := map_upd_perm R.arch e.preg a1
      rw [← a2] at e2
      refine e1.trans ((e2.append_right _).trans ?_)
      rw [List.append_assoc]; exact List.Perm.refl _
    · show upd R.arch e.areg e.preg 0 = 0
      rw [upd, if_neg (by omega)]; exact h.arch0
    · show (R.ok && decide (R.hc ≠ R.head)) = true
      have : R.hc ≠ R.head := by
        intro h'
        have := ringDist_add h.hcLt (show (pregs w).length + 1 < P by omega)
        rw [← hhe, ← h', ringDist, if_neg (by omega)] at this; omega
      simp [h.ok, this]
  · have hd' : e.destEn = false := by simpa using hd
    have hco : commitOne P false R (toCommit false e) = R := by simp [commitOne, toCommit, hd']
    have happ : apply R.arch e = R.arch := by simp [apply, hd']
    have hnxt : nxt P R.hc e = R.hc := by simp [nxt, hd']
    have hpc : pregs (e :: w) = pregs w := by rw [pregs_cons]; simp [hd']
    rw [hco, happ]
    rw [happ, hnxt] at c3
    have h1 := h.headEq; have h2 := h.le; have h3 := h.specEq; have h4 := h.ringEq
    rw [hpc] at h1 h2 h4
    rw [applyAll_cons, happ] at h3
    exact ⟨⟨h.hcLt, h1, h.tailEq, h2, h3, c3, h4, h.perm, h.arch0, h.ok⟩, rfl⟩

theorem rinv_commitAll (hA : 0 < A) : ∀ (l r : List Entry) R, RInv P A N R (l ++ r) →
    RInv P A N ((l.map (toCommit false)).foldl (commitOne P false) R) r ∧
    ((l.map (toCommit false)).foldl (commitOne P false) R).arch = applyAll R.arch l
  | [], r, R, h => ⟨h, rfl⟩
  | e :: l, r, R, h => by
    obtain ⟨h1, h2⟩ := rinv_commitOne hA (w := l ++ r) h
    obtain ⟨h3, h4⟩ := rinv_commitAll hA l r _ h1
    exact ⟨h3, by rw [List.map_cons, List.foldl_cons, h4, h2]; rfl⟩

theorem commit_skip (exc interrupt : Bool) (hs : exc = true ∨ interrupt = true) :
    ∀ (l : List Entry) R, (l.map (toCommit exc)).foldl (commitOne P interrupt) R = R
  | [], _ => rfl
  | e :: l, R => by
    have : commitOne P interrupt R (toCommit exc e) = R := by
      rcases hs with rfl | rfl <;> simp [commitOne, toCommit]
    rw [List.map_cons, List.foldl_cons, this, commit_skip exc interrupt hs l R]

/-! ### Recovery -/

theorem rinv_flush {R w} (h : RInv P A N R w) : RInv P A N { R with spec := R.arch, head := R.hc } [] := by
  refine ⟨h.hcLt, ?_, h.tailEq, by simp [pregs], rfl, trivial, rfl, h.perm, h.arch0, h.ok⟩
  show R.hc = _; simp [pregs, Nat.mod_eq_of_lt h.hcLt]

theorem upTo_append_after {t : Nat} : ∀ {w : List Entry}, (∃ e ∈ w, e.tag = some t) →
    w = upTo t w ++ after t w
  | [], h => by simp at h
  | e :: r, h => by
    rw [upTo, after]
    by_cases he : e.tag = some t
    · simp [he]
    · rw [if_neg he, if_neg he]
      obtain ⟨x, hx, ht⟩ := h
      rcases List.mem_cons.1 hx with rfl | hx
      · exact absurd ht he
      · rw [List.cons_append, ← upTo_append_after ⟨x, hx, ht⟩]

theorem chain_upTo {ck ckh} {t : Nat} : ∀ {w : List Entry} {m h} (_ : h < P), (∃ e ∈ w, e.tag = some t) →
    Chain P A N ck ckh m h w →
    0 < t ∧ t < N ∧ ck t = applyAll m (upTo t w) ∧ ckh t = (h + (pregs (upTo t w)).length) % P
  | [], m, h, _, hex, _ => by simp at hex
  | e :: r, m, h, hh, hex, ⟨_, b, c⟩ => by
    have hn : nxt P h e < P := by rw [nxt]; split; exact inc_lt (by omega); exact hh
    have hlen : ∀ l, (nxt P h e + (pregs l).length) % P = (h + (pregs (e :: l)).length) % P := by
      intro l; rw [pregs_cons]
      by_cases hd : e.destEn
      · simp only [nxt, hd, if_true, inc_add, List.length_append, List.length_cons, List.length_nil]
        congr 2; omega
      · simp [nxt, hd]
    rw [upTo]
    by_cases he : e.tag = some t
    · obtain ⟨b1, b2, b3, b4⟩ := b t he
      rw [if_pos he]
      refine ⟨b1, b2, b3, ?_⟩
      rw [b4, ← hlen []]; simp [pregs, Nat.mod_eq_of_lt hn]
    · rw [if_neg he]
      obtain ⟨x, hx, ht⟩ := hex
      rcases List.mem_cons.1 hx with rfl | hx
      · exact absurd ht he
      · obtain ⟨k1, k2, k3, k4⟩ := chain_upTo hn ⟨x, hx, ht⟩ c
        exact ⟨k1, k2, k3, by rw [k4, hlen]⟩

/-- Dropping everything after the branch that owns `t`. -/
theorem rinv_mispred {R w} (h : RInv P A N R w) {t : Nat} (hex : ∃ e ∈ w, e.tag = some t)
    {ck ckh} (hck : ∀ e ∈ upTo t w, ∀ u, e.tag = some u → ck u = R.ck u ∧ ckh u = R.ckHead u) :
    RInv P A N { R with spec := R.ck t, head := R.ckHead t, ck := ck, ckHead := ckh } (upTo t w) := by
  obtain ⟨_, _, k3, k4⟩ := chain_upTo h.hcLt hex h.chain
  have hw := upTo_append_after hex
  have hch := h.chain
  have hle := h.le
  have hre := h.ringEq
  rw [hw] at hch hle hre
  rw [pregs_append, List.length_append] at hle hre
  rw [chain_append _ _ _ _ h.hcLt] at hch
  rw [ring_append P _ h.hcLt] at hre
  refine ⟨h.hcLt, k4, h.tailEq, by omega, k3, chain_congr _ _ _ hck hch.1, ?_, h.perm, h.arch0, h.ok⟩
  exact List.append_inj_left hre (ring_length P _ _ _)

end Verif.Proofs.Ren

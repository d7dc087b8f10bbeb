import Verif.Spec.DispatchGroup
namespace Verif.Proofs.Dispatch
open Verif.Dispatch Verif.DispatchGroup
open Verif.Decode (DecInst MicroOp Iq decompose)

variable {n : Nat}

/-! ### Shape of the passes -/

theorem allocGo_length (c : Cfg) (i : Input n) : ∀ l k st ld, (allocGo c i l k st ld).length = l.length
  | [], _, _, _ => rfl
  | none :: t, k, st, ld => by simp [allocGo, allocGo_length c i t]
  | some u :: t, k, st, ld => by simp [allocGo, allocGo_length c i t]

theorem wakeGo_length (b : Nat → Bool) (w : List Nat) : ∀ (l o : List (Alloc n)),
    (wakeGo b w o l).length = l.length
  | [], _ => rfl
  | a :: t, o => by simp [wakeGo, wakeGo_length b w t]

/-- Everything about a slot except the busy flags. -/
def skel (a : Alloc n) : Alloc n := { a with src1Busy := false, src2Busy := false }

theorem wakeSlot_skel (b : Nat → Bool) (w : List Nat) (o : List (Alloc n)) (a : Alloc n) :
    skel (wakeSlot b w o a) = skel a := by
  unfold wakeSlot
  simp only []
  split <;> rfl

theorem skel_robValid {a b : Alloc n} (e : skel a = skel b) : a.robValid = b.robValid :=
  congrArg (fun x : Alloc n => x.robValid) (a₁ := skel a) (a₂ := skel b) e
theorem skel_valid {a b : Alloc n} (e : skel a = skel b) : a.valid = b.valid :=
  congrArg (fun x : Alloc n => x.valid) (a₁ := skel a) (a₂ := skel b) e
theorem skel_inst {a b : Alloc n} (e : skel a = skel b) : a.inst = b.inst :=
  congrArg (fun x : Alloc n => x.inst) (a₁ := skel a) (a₂ := skel b) e

theorem wakeGo_skel (b : Nat → Bool) (w : List Nat) : ∀ (l o : List (Alloc n)),
    (wakeGo b w o l).map skel = l.map skel
  | [], _ => rfl
  | a :: t, o => by
    simp only [wakeGo, List.map_cons, wakeGo_skel b w t, List.cons.injEq, and_true]
    exact wakeSlot_skel b w o a

theorem dispatchGo_length (c : Cfg) (i : Input n) : ∀ l old r, old.length = l.length →
    (dispatchGo c i l old r).1.length = l.length
  | [], _, _, _ => rfl
  | a :: t, [], _, h => by simp at h
  | a :: t, x :: old, r, h => by
    have h' : old.length = t.length := by simpa using h
    simp only [dispatchGo, List.drop_succ_cons, List.drop_zero]
    split
    · split
      · simp [dispatchGo_length c i t old _ h']
      · simp [h']
    · simp [dispatchGo_length c i t old _ h']

theorem fireGo_length (i : Input n) (g : Bool) : ∀ l st f, (fireGo i g l st f).1.length = l.length
  | [], _, _ => rfl
  | (a, ok) :: t, st, f => by simp [fireGo, fireGo_length i g t]

theorem fireGo_stall (i : Input n) (g : Bool) : ∀ l f,
    fireGo i g l true f = (List.replicate l.length false, true)
  | [], _ => rfl
  | (a, ok) :: t, f => by
    simp only [fireGo, Bool.not_true, Bool.and_false, Bool.false_and, Bool.true_or]
    simp [fireGo_stall i g t, List.replicate_succ]

theorem fireGo_blocked (i : Input n) (g : Bool) (h : g = true ∨ i.robReady = false) : ∀ l st f,
    (fireGo i g l st f).1 = List.replicate l.length false
  | [], _, _ => rfl
  | (a, ok) :: t, st, f => by
    have : (a.robValid && ok && i.robReady && !st && !g) = false := by
      rcases h with h | h <;> simp [h]
    simp [fireGo, this, fireGo_blocked i g h t, List.replicate_succ]

/-- The fired slots of paired lists. -/
def firedOf (l : List (Alloc n × Bool)) (fs : List Bool) : List (Alloc n) :=
  (l.zip fs).filterMap (fun x => if x.2 then some x.1.1 else none)

theorem firedOf_cons (a : Alloc n) (ok f : Bool) (t : List (Alloc n × Bool)) (fs : List Bool) :
    firedOf ((a, ok) :: t) (f :: fs) = (if f then [a] else []) ++ firedOf t fs := by
  cases f <;> simp [firedOf]

theorem firedOf_false (l : List (Alloc n × Bool)) (m : Nat) : firedOf l (List.replicate m false) = [] := by
  induction l generalizing m with
  | nil => simp [firedOf]
  | cons x t ih =>
    cases m with
    | zero => simp [firedOf]
    | succ m => simpa [firedOf, List.replicate_succ] using ih m

/-! ### Requests -/

/-- What `comb_dispatch` writes for queue `q`. -/
def written : List (Alloc n × Bool) → Iq → List (Packet n)
  | [], _ => []
  | (a, ok) :: t, q =>
    if !a.valid then written t q
    else if !ok then []
    else (packets a).filter (fun p => p.mop.iq = q) ++ written t q

/-- The same with the valid bits that the roll-back leaves. -/
def marked : List ((Alloc n × Bool) × Bool) → Iq → List (Packet n × Bool)
  | [], _ => []
  | ((a, ok), f) :: t, q =>
    if !a.valid then marked t q
    else if !ok then []
    else ((packets a).filter (fun p => p.mop.iq = q)).map (·, f) ++ marked t q

theorem place_eq (ps : List (Packet n)) : ∀ (r : Reqs n) q,
    place r ps q = r q ++ (ps.filter (fun p => p.mop.iq = q)).map (·, true) := by
  induction ps with
  | nil => intro r q; simp [place]
  | cons p ps ih =>
    intro r q
    have := ih (fun q' => if q' = p.mop.iq then r q' ++ [(p, true)] else r q') q
    unfold place at this ⊢
    rw [List.foldl_cons, this]
    by_cases h : q = p.mop.iq
    · simp [h]
    · have h' : ¬ p.mop.iq = q := fun e => h e.symm
      simp [h, h']

theorem dispatchGo_reqs (c : Cfg) (i : Input n) : ∀ l old r q, old.length = l.length →
    (dispatchGo c i l old r).2 q =
      r q ++ (written (l.zip (dispatchGo c i l old r).1) q).map (·, true)
  | [], _, r, q, _ => by simp [dispatchGo, written]
  | a :: t, [], _, _, h => by simp at h
  | a :: t, x :: old, r, q, h => by
    have h' : old.length = t.length := by simpa using h
    simp only [dispatchGo, List.drop_succ_cons, List.drop_zero]
    by_cases hv : a.valid = true
    · by_cases hf : fits c i r (packets a) = true
      · simp [hv, hf, written, dispatchGo_reqs c i t old _ q h', place_eq]
      · simp [hv, hf, written]
    · simp [hv, written, dispatchGo_reqs c i t old r q h']

theorem modify_at {α : Type} (g : α → α) (x : α) (t : List α) : ∀ pre : List α,
    (pre ++ x :: t).modify pre.length g = pre ++ g x :: t
  | [] => rfl
  | y :: pre => by
    have := modify_at g x t pre
    simpa using this

theorem backOne_eq (f : Bool) : ∀ (ps : List (Packet n)) (r : Reqs n) (idx : Iq → Nat)
    (pre rest : Reqs n),
    (∀ q, r q = pre q ++ (ps.filter (fun p => p.mop.iq = q)).map (·, true) ++ rest q) →
    (∀ q, idx q = (pre q).length) →
    (∀ q, (backOne f ps (r, idx)).1 q =
      pre q ++ (ps.filter (fun p => p.mop.iq = q)).map (·, f) ++ rest q) ∧
    ∀ q, (backOne f ps (r, idx)).2 q =
      (pre q).length + (ps.filter (fun p => p.mop.iq = q)).length
  | [], r, idx, pre, rest, h1, h2 => by
    refine ⟨fun q => ?_, fun q => ?_⟩
    · simp [backOne, h1 q]
    · simp [backOne, h2 q]
  | p :: ps, r, idx, pre, rest, h1, h2 => by
    have ih := backOne_eq f ps
      (if f then r else fun q' => if q' = p.mop.iq then cancel (r q') (idx q') else r q')
      (fun q' => if q' = p.mop.iq then idx q' + 1 else idx q')
      (fun q => pre q ++ if q = p.mop.iq then [(p, f)] else []) rest
      (by
        intro q
        by_cases hq : q = p.mop.iq
        · cases f with
          | true => rw [if_pos rfl, h1 q]; simp [hq]
          | false =>
            rw [if_neg (by simp)]
            simp only [if_pos hq]
            rw [h1 q, h2 q, cancel]
            have : p.mop.iq = q := hq.symm
            simp only [List.filter_cons, this, decide_true, if_true, List.map_cons, List.append_assoc,
              List.cons_append, List.nil_append]
            rw [modify_at]
        · have hq' : ¬ p.mop.iq = q := fun e => hq e.symm
          have : (if f then r else fun q' => if q' = p.mop.iq then cancel (r q') (idx q') else r q') q
              = r q := by
            cases f <;> simp [hq]
          rw [this, h1 q]
          simp [hq, hq'])
      (by
        intro q
        by_cases hq : q = p.mop.iq
        · simp [hq, h2]
        · simp [hq, h2])
    refine ⟨fun q => ?_, fun q => ?_⟩
    · rw [backOne, ih.1 q]
      by_cases hq : q = p.mop.iq
      · simp [hq]
      · have hq' : ¬ p.mop.iq = q := fun e => hq e.symm
        simp [hq, hq']
    · rw [backOne, ih.2 q]
      by_cases hq : q = p.mop.iq
      · simp [hq]; omega
      · have hq' : ¬ p.mop.iq = q := fun e => hq e.symm
        simp [hq, hq']

theorem backGo_eq : ∀ (l : List (Alloc n × Bool)) (fs : List Bool) (r : Reqs n) (idx : Iq → Nat)
    (pre : Reqs n), fs.length = l.length →
    (∀ q, r q = pre q ++ (written l q).map (·, true)) → (∀ q, idx q = (pre q).length) →
    ∀ q, (backGo (l.zip fs) (r, idx)).1 q = pre q ++ marked (l.zip fs) q
  | [], _, r, idx, pre, _, h1, _, q => by simp [backGo, marked, h1, written]
  | (a, ok) :: t, [], _, _, _, h, _, _, _ => by simp at h
  | (a, ok) :: t, f :: fs, r, idx, pre, h, h1, h2, q => by
    have h' : fs.length = t.length := by simpa using h
    simp only [List.zip_cons_cons, backGo, marked]
    by_cases hv : a.valid = true
    · by_cases ho : ok = true
      · simp only [hv, ho, Bool.not_true, Bool.false_eq_true, if_false]
        have hb := backOne_eq f (packets a) r idx pre (fun q => (written t q).map (·, true))
          (by intro q; rw [h1 q]; simp [written, hv, ho]) h2
        have ih := backGo_eq t fs (backOne f (packets a) (r, idx)).1 (backOne f (packets a) (r, idx)).2
          (fun q => pre q ++ ((packets a).filter (fun p => p.mop.iq = q)).map (·, f)) h'
          (by intro q; rw [hb.1 q]) (by intro q; rw [hb.2 q]; simp) q
        rw [ih]; simp
      · simp [hv, ho, h1, written]
    · simp only [hv]
      exact backGo_eq t fs r idx pre h' (by intro q; rw [h1 q]; simp [written, hv]) h2 q

/-- The requests that survive. -/
def alive (l : List (Packet n × Bool)) : List (Packet n) :=
  l.filterMap (fun x => if x.2 then some x.1 else none)

theorem alive_append (a b : List (Packet n × Bool)) : alive (a ++ b) = alive a ++ alive b := by
  simp [alive]

theorem alive_map (ps : List (Packet n)) (f : Bool) : alive (ps.map (·, f)) = if f then ps else [] := by
  induction ps with
  | nil => cases f <;> rfl
  | cons p t ih => cases f <;> simp_all [alive]

theorem alive_false : ∀ (l : List (Alloc n × Bool)) (m : Nat) (q : Iq),
    alive (marked (l.zip (List.replicate m false)) q) = []
  | [], _, _ => by simp [marked, alive]
  | _ :: _, 0, _ => by simp [marked, alive]
  | (a, ok) :: t, m + 1, q => by
    simp only [List.replicate_succ, List.zip_cons_cons, marked]
    split
    · exact alive_false t m q
    · split
      · rfl
      · rw [alive_append, alive_map, alive_false t m q]; rfl

theorem alive_marked (i : Input n) (g : Bool) (q : Iq) : ∀ (l : List (Alloc n × Bool)) st f,
    (∀ x ∈ l, x.1.robValid = true → x.1.valid = true) →
    alive (marked (l.zip (fireGo i g l st f).1) q) =
      (firedOf l (fireGo i g l st f).1).flatMap (fun a => (packets a).filter (fun p => p.mop.iq = q))
  | [], _, _, _ => by simp [marked, alive, firedOf]
  | (a, ok) :: t, st, f, h => by
    have ht : ∀ x ∈ t, x.1.robValid = true → x.1.valid = true := fun x hx => h x (by simp [hx])
    have ha : a.robValid = true → a.valid = true := h (a, ok) (by simp)
    simp only [fireGo]
    generalize hf : (a.robValid && ok && i.robReady && !st && !g &&
      !((isCsr a.inst.dec || (a.valid && a.inst.dec.type == .amo)) && (!i.robEmpty || f))) = fire
    by_cases hv : a.valid = true
    · cases fire with
      | false =>
        simp only [hv, Bool.not_false, Bool.and_true, Bool.or_true, Bool.false_and,
          Bool.or_false]
        rw [fireGo_stall]
        rw [← List.replicate_succ, firedOf_false, alive_false]
        rfl
      | true =>
        have ho : ok = true := by
          simp only [Bool.and_eq_true] at hf; exact hf.1.1.1.1.2
        simp only [List.zip_cons_cons, marked, hv, ho, Bool.not_true, Bool.false_eq_true, if_false]
        rw [alive_append, alive_map, alive_marked i g q t _ _ ht, firedOf_cons]
        simp
    · have hr : a.robValid = false := by
        cases hr : a.robValid with
        | false => rfl
        | true => exact absurd (ha hr) hv
      have hfire : fire = false := by rw [← hf, hr]; simp
      have hv' : a.valid = false := by simpa using hv
      subst hfire
      simp only [List.zip_cons_cons, marked, hv', Bool.not_false, if_true]
      rw [alive_marked i g q t _ _ ht, firedOf_cons]
      simp

/-! ### Order -/

/-- Fired slots form a prefix of the valid ones; `ready` is given only if all of them fired. -/
theorem fired_prefix (i : Input n) (g : Bool) : ∀ (l : List (Alloc n × Bool)) st f,
    (∀ x ∈ l, x.1.robValid = true → x.1.valid = true) →
    ∃ rest, (l.map (·.1)).filter (·.valid) = firedOf l (fireGo i g l st f).1 ++ rest ∧
      ((fireGo i g l st f).2 = false → rest = [])
  | [], _, _, _ => ⟨[], by simp [firedOf], fun _ => rfl⟩
  | (a, ok) :: t, st, f, h => by
    have ht : ∀ x ∈ t, x.1.robValid = true → x.1.valid = true := fun x hx => h x (by simp [hx])
    have ha : a.robValid = true → a.valid = true := h (a, ok) (by simp)
    simp only [fireGo]
    generalize hf : (a.robValid && ok && i.robReady && !st && !g &&
      !((isCsr a.inst.dec || (a.valid && a.inst.dec.type == .amo)) && (!i.robEmpty || f))) = fire
    by_cases hv : a.valid = true
    · cases fire with
      | false =>
        simp only [hv, Bool.not_false, Bool.and_true, Bool.or_true, Bool.false_and,
          Bool.or_false]
        rw [fireGo_stall]
        rw [← List.replicate_succ, firedOf_false]
        exact ⟨_, rfl, fun e => by simp at e⟩
      | true =>
        obtain ⟨rest, h1, h2⟩ := fired_prefix i g t (st || (a.valid && !true) ||
          (true && ((a.valid && a.inst.dec.type == .amo) || (a.valid && a.inst.dec.type == .wfi))))
          (f || true) ht
        refine ⟨rest, ?_, h2⟩
        simp only [List.map_cons, List.filter_cons, hv, if_true] at h1 ⊢
        rw [h1, firedOf_cons]
        simp
    · have hr : a.robValid = false := by
        cases hr : a.robValid with
        | false => rfl
        | true => exact absurd (ha hr) hv
      have hfire : fire = false := by rw [← hf, hr]; simp
      have hv' : a.valid = false := by simpa using hv
      subst hfire
      obtain ⟨rest, h1, h2⟩ := fired_prefix i g t (st || (a.valid && !false) ||
          (false && ((a.valid && a.inst.dec.type == .amo) || (a.valid && a.inst.dec.type == .wfi))))
          (f || false) ht
      refine ⟨rest, ?_, h2⟩
      simp only [List.map_cons, List.filter_cons, hv']
      rw [if_neg (by simp), h1, firedOf_cons]
      simp [hv']

/-! ### Allocation -/

theorem filter_skel {l l' : List (Alloc n)} (h : l.map skel = l'.map skel) :
    (l.filter (·.valid)).map (·.inst) = (l'.filter (·.valid)).map (·.inst) := by
  have key : ∀ l : List (Alloc n), (l.filter (·.valid)).map (·.inst) =
      ((l.map skel).filter (·.valid)).map (·.inst) := by
    intro l
    rw [List.filter_map, List.map_map]
    rfl
  rw [key l, key l', h]

theorem alloc_waiting (c : Cfg) (i : Input n) : ∀ l k st ld,
    ((allocGo c i l k st ld).filter (·.valid)).map (·.inst) = (l.filterMap id).map (scrub i)
  | [], _, _, _ => rfl
  | none :: t, k, st, ld => by
    simp only [allocGo, List.filterMap_cons, id]
    rw [List.filter_cons_of_neg (by simp [emptySlot]), alloc_waiting c i t]
  | some u :: t, k, st, ld => by
    simp only [allocGo, List.filterMap_cons, id]
    rw [List.filter_cons_of_pos (by rfl), List.map_cons, alloc_waiting c i t]
    rfl

theorem alloc_robValid (c : Cfg) (i : Input n) : ∀ l k st ld,
    ∀ a ∈ allocGo c i l k st ld, a.robValid = true → a.valid = true
  | [], _, _, _, a, ha, _ => by simp [allocGo] at ha
  | none :: t, k, st, ld, a, ha, hr => by
    simp only [allocGo, List.mem_cons] at ha
    rcases ha with rfl | ha
    · simp [emptySlot] at hr
    · exact alloc_robValid c i t _ _ _ a ha hr
  | some u :: t, k, st, ld, a, ha, hr => by
    simp only [allocGo, List.mem_cons] at ha
    rcases ha with rfl | ha
    · rfl
    · exact alloc_robValid c i t _ _ _ a ha hr

theorem skel_mem {l l' : List (Alloc n)} (h : l.map skel = l'.map skel) {a : Alloc n} (ha : a ∈ l) :
    ∃ b ∈ l', skel b = skel a := by
  have : skel a ∈ l.map skel := List.mem_map_of_mem ha
  rw [h, List.mem_map] at this
  exact this

/-- The allocated slots after `comb_wake`. -/
def slotsOf (c : Cfg) (s : State n) (i : Input n) : List (Alloc n) :=
  wakeGo s.busy i.wakes [] (allocGo c i s.slots 0 0 0)

theorem slots_robValid (c : Cfg) (s : State n) (i : Input n) :
    ∀ a ∈ slotsOf c s i, a.robValid = true → a.valid = true := by
  intro a ha hr
  obtain ⟨b, hb, e⟩ := skel_mem (wakeGo_skel s.busy i.wakes _ _) ha
  rw [← skel_valid e]
  exact alloc_robValid c i _ _ _ _ b hb (by rw [skel_robValid e, hr])

theorem slots_waiting (c : Cfg) (s : State n) (i : Input n) :
    ((slotsOf c s i).filter (·.valid)).map (·.inst) = (waiting s).map (scrub i) := by
  rw [slotsOf, filter_skel (wakeGo_skel s.busy i.wakes _ _), alloc_waiting]
  rfl

theorem slots_length (c : Cfg) (s : State n) (i : Input n) :
    (slotsOf c s i).length = s.slots.length := by
  rw [slotsOf, wakeGo_length, allocGo_length]

/-- The stage keeps one flag per slot. -/
def Wf (s : State n) : Prop := s.flags.length = s.slots.length

theorem comb_alloc (c : Cfg) (s : State n) (i : Input n) : (comb c s i).alloc = slotsOf c s i := rfl

theorem flags_length (c : Cfg) {s : State n} (h : Wf s) (i : Input n) :
    (comb c s i).flags.length = s.slots.length := by
  have := dispatchGo_length c i (slotsOf c s i) s.flags (fun _ => [])
    (by rw [slots_length]; exact h)
  rw [slots_length] at this
  exact this

theorem zip_length (c : Cfg) {s : State n} (h : Wf s) (i : Input n) :
    ((slotsOf c s i).zip (comb c s i).flags).length = s.slots.length := by
  rw [List.length_zip, slots_length, flags_length c h, Nat.min_self]

theorem fire_length (c : Cfg) {s : State n} (h : Wf s) (i : Input n) :
    (comb c s i).fire.length = s.slots.length := by
  have : (comb c s i).fire.length = ((slotsOf c s i).zip (comb c s i).flags).length :=
    fireGo_length i _ _ _ _
  rw [this, zip_length c h]

theorem zip_fst {α β : Type} : ∀ (l : List α) (m : List β), l.length ≤ m.length →
    (l.zip m).map (·.1) = l
  | [], _, _ => by simp
  | a :: l, [], h => by simp at h
  | a :: l, b :: m, h => by simp [zip_fst l m (by simpa using h)]

theorem firedOf_eq : ∀ (l : List (Alloc n)) (fl fs : List Bool), l.length ≤ fl.length →
    firedOf (l.zip fl) fs = (l.zip fs).filterMap (fun x => if x.2 then some x.1 else none)
  | [], _, _, _ => by simp [firedOf]
  | a :: l, [], _, h => by simp at h
  | a :: l, b :: fl, [], _ => by simp [firedOf]
  | a :: l, b :: fl, f :: fs, h => by
    rw [List.zip_cons_cons, firedOf_cons, firedOf_eq l fl fs (by simpa using h), List.zip_cons_cons,
      List.filterMap_cons]
    cases f <;> rfl

theorem fired_eq (c : Cfg) {s : State n} (h : Wf s) (i : Input n) :
    fired (comb c s i) =
      firedOf ((slotsOf c s i).zip (comb c s i).flags) (comb c s i).fire := by
  rw [firedOf_eq _ _ _ (by rw [slots_length, flags_length c h]; exact Nat.le_refl _)]
  rfl

theorem zip_robValid (c : Cfg) (s : State n) (i : Input n) (fl : List Bool) :
    ∀ x ∈ (slotsOf c s i).zip fl, x.1.robValid = true → x.1.valid = true :=
  fun x hx => slots_robValid c s i x.1 (List.of_mem_zip (a := x.1) (b := x.2) hx).1

/-- The dispatched slots are a prefix of the valid ones. -/
theorem fired_prefix' (c : Cfg) {s : State n} (h : Wf s) (i : Input n) :
    ∃ rest, (slotsOf c s i).filter (·.valid) = fired (comb c s i) ++ rest ∧
      ((comb c s i).ready = true → rest = []) := by
  obtain ⟨rest, h1, h2⟩ := fired_prefix i (i.flush || i.mispred || i.robStall)
    ((slotsOf c s i).zip (comb c s i).flags) false false (zip_robValid c s i _)
  rw [zip_fst _ _ (by rw [slots_length, flags_length c h]; exact Nat.le_refl _)] at h1
  refine ⟨rest, ?_, fun hr => h2 ?_⟩
  · rw [h1, fired_eq c h]; rfl
  · have : (!(fireGo i (i.flush || i.mispred || i.robStall)
      ((slotsOf c s i).zip (comb c s i).flags) false false).2) = true := hr
    simpa using this

/-- What is sent to each queue. -/
theorem sent_eq (c : Cfg) {s : State n} (h : Wf s) (i : Input n) (q : Iq) :
    sent (comb c s i) q =
      (fired (comb c s i)).flatMap (fun a => (packets a).filter (fun p => p.mop.iq = q)) := by
  have hd := dispatchGo_reqs c i (slotsOf c s i) s.flags (fun _ => [])
  have hl : s.flags.length = (slotsOf c s i).length := by rw [slots_length]; exact h
  have hb := backGo_eq ((slotsOf c s i).zip (comb c s i).flags) (comb c s i).fire
    (dispatchGo c i (slotsOf c s i) s.flags (fun _ => [])).2 (fun _ => 0) (fun _ => [])
    (by rw [fire_length c h, zip_length c h]) (fun q => hd q hl) (fun _ => rfl) q
  have ha := alive_marked i (i.flush || i.mispred || i.robStall) q
    ((slotsOf c s i).zip (comb c s i).flags) false false (zip_robValid c s i _)
  rw [fired_eq c h]
  refine Eq.trans ?_ ha
  rw [List.nil_append] at hb
  exact congrArg alive hb

/-! ### Room -/

theorem decompose_nodup (d : DecInst) : ((decompose d).map (·.iq)).Nodup := by
  unfold decompose
  cases d.type <;> simp only [] <;> first
    | (simp; done)
    | (split
       · simp
       · split <;> simp)

theorem filter_le_one (a : Alloc n) (q : Iq) :
    ((packets a).filter (fun p => p.mop.iq = q)).length ≤ 1 := by
  have h : ((packets a).map (fun p => p.mop.iq)).Nodup := by
    have : (packets a).map (fun p => p.mop.iq) = (decompose a.inst.dec).map (·.iq) := by
      simp [packets]
    rw [this]
    exact decompose_nodup _
  generalize packets a = ps at h
  induction ps with
  | nil => simp
  | cons p ps ih =>
    simp only [List.map_cons, List.nodup_cons] at h
    by_cases hq : p.mop.iq = q
    · have : ps.filter (fun p => p.mop.iq = q) = [] := by
        rw [List.filter_eq_nil_iff]
        intro x hx hxq
        exact h.1 (List.mem_map.2 ⟨x, hx, by simp at hxq; rw [hxq, hq]⟩)
      simp [hq, this]
    · simpa [hq] using ih h.2

theorem dispatchGo_room (c : Cfg) (i : Input n) (q : Iq) : ∀ l old r,
    ((r q).length ≤ i.ready q ∧ (r q).length ≤ c.ports q) →
    ((dispatchGo c i l old r).2 q).length ≤ i.ready q ∧
    ((dispatchGo c i l old r).2 q).length ≤ c.ports q
  | [], _, r, h => h
  | a :: t, old, r, h => by
    simp only [dispatchGo]
    split
    · split
      · rename_i hf
        refine dispatchGo_room c i q t _ _ ?_
        rw [place_eq]
        simp only [List.length_append, List.length_map]
        have h1 := filter_le_one a q
        by_cases hz : ((packets a).filter (fun p => p.mop.iq = q)).length = 0
        · omega
        · obtain ⟨p, hp⟩ := List.exists_mem_of_length_pos (Nat.pos_of_ne_zero hz)
          rw [List.mem_filter] at hp
          have hpq : p.mop.iq = q := by simpa using hp.2
          have := List.all_eq_true.1 hf p hp.1
          simp only [hpq, Bool.and_eq_true, decide_eq_true_eq] at this
          omega
      · exact h
    · exact dispatchGo_room c i q t _ _ h

theorem marked_length : ∀ (l : List (Alloc n × Bool)) (fs : List Bool) (q : Iq),
    fs.length = l.length → (marked (l.zip fs) q).length = (written l q).length
  | [], _, _, _ => by simp [marked, written]
  | x :: t, [], _, h => by simp at h
  | (a, ok) :: t, f :: fs, q, h => by
    have ih := marked_length t fs q (by simpa using h)
    simp only [List.zip_cons_cons, marked, written]
    split
    · exact ih
    · split
      · rfl
      · simp [ih]

theorem sent_room (c : Cfg) {s : State n} (h : Wf s) (i : Input n) (q : Iq) :
    (sent (comb c s i) q).length ≤ i.ready q ∧ (sent (comb c s i) q).length ≤ c.ports q := by
  have hl : s.flags.length = (slotsOf c s i).length := by rw [slots_length]; exact h
  have hd := dispatchGo_reqs c i (slotsOf c s i) s.flags (fun _ => []) q hl
  have hb := backGo_eq ((slotsOf c s i).zip (comb c s i).flags) (comb c s i).fire
    (dispatchGo c i (slotsOf c s i) s.flags (fun _ => [])).2 (fun _ => 0) (fun _ => [])
    (by rw [fire_length c h, zip_length c h])
    (fun q => dispatchGo_reqs c i (slotsOf c s i) s.flags (fun _ => []) q hl) (fun _ => rfl) q
  have hr := dispatchGo_room c i q (slotsOf c s i) s.flags (fun _ => []) (by simp)
  have hm := marked_length ((slotsOf c s i).zip (comb c s i).flags) (comb c s i).fire q
    (by rw [fire_length c h, zip_length c h])
  have e1 : ((comb c s i).reqs q).length ≤ i.ready q ∧ ((comb c s i).reqs q).length ≤ c.ports q := by
    have : (comb c s i).reqs q = marked (((slotsOf c s i).zip (comb c s i).flags).zip
        (comb c s i).fire) q := by rw [List.nil_append] at hb; exact hb
    rw [this, hm]
    have hx : ((dispatchGo c i (slotsOf c s i) s.flags (fun _ => [])).2 q).length =
        (written ((slotsOf c s i).zip (comb c s i).flags) q).length := by
      rw [hd]; simp [comb, slotsOf]
    omega
  have e2 : (sent (comb c s i) q).length ≤ ((comb c s i).reqs q).length := List.length_filterMap_le _ _
  omega

/-! ### Serialisation -/

theorem fired_serial (i : Input n) (g : Bool) : ∀ (l : List (Alloc n × Bool)) st f,
    (∀ x ∈ l, x.1.robValid = true → x.1.valid = true) →
    ∀ pre a post, firedOf l (fireGo i g l st f).1 = pre ++ a :: post →
      (isCsr a.inst.dec = true ∨ a.inst.dec.type = .amo →
        i.robEmpty = true ∧ f = false ∧ pre = []) ∧
      (a.inst.dec.type = .amo ∨ a.inst.dec.type = .wfi → post = [])
  | [], _, _, _, pre, a, post, e => by simp [firedOf] at e
  | (b, ok) :: t, st, f, h, pre, a, post, e => by
    have ht : ∀ x ∈ t, x.1.robValid = true → x.1.valid = true := fun x hx => h x (by simp [hx])
    have hb : b.robValid = true → b.valid = true := h (b, ok) (by simp)
    simp only [fireGo, firedOf_cons] at e
    generalize hf : (b.robValid && ok && i.robReady && !st && !g &&
      !((isCsr b.inst.dec || (b.valid && b.inst.dec.type == .amo)) && (!i.robEmpty || f))) = fire at e
    cases fire with
    | false =>
      simp only [Bool.false_eq_true, if_false, List.nil_append, Bool.or_false] at e
      have ih := fired_serial i g t _ _ ht pre a post e
      exact ih
    | true =>
      simp only [Bool.and_eq_true, Bool.not_eq_true', Bool.and_eq_false_iff, Bool.or_eq_false_iff,
        Bool.not_eq_false'] at hf
      have hv : b.valid = true := hb hf.1.1.1.1.1
      simp only [if_true, List.singleton_append] at e
      cases pre with
      | nil =>
        simp only [List.nil_append, List.cons.injEq] at e
        obtain ⟨rfl, e⟩ := e
        refine ⟨fun hs => ?_, fun hs => ?_⟩
        · rcases hf.2 with h1 | h1
          · rcases hs with hs | hs
            · rw [h1.1] at hs; simp at hs
            · simp [hv, hs] at h1
          · exact ⟨by simpa using h1.1, h1.2, rfl⟩
        · have : (st || (b.valid && !true) || (true && ((b.valid && b.inst.dec.type == .amo) ||
              (b.valid && b.inst.dec.type == .wfi)))) = true := by
            rcases hs with hs | hs <;> simp [hv, hs]
          rw [this, fireGo_stall, firedOf_false] at e
          exact e.symm
      | cons p pre =>
        simp only [List.cons_append, List.cons.injEq] at e
        have ih := fired_serial i g t _ _ ht pre a post e.2
        refine ⟨fun hs => ?_, ih.2⟩
        have := (ih.1 hs).2.1
        simp at this

/-! ### Progress -/

/-- The first waiting instruction can go. -/
def canGo (c : Cfg) (i : Input n) (u : Inst n) : Prop :=
  i.robReady = true ∧ (i.flush || i.mispred || i.robStall) = false ∧
  (isLoad u.dec = true → ldFits c i 0 = true) ∧ (isStore u.dec = true → stFits c i 0 = true) ∧
  (∀ m ∈ decompose u.dec, 0 < c.ports m.iq ∧ 0 < i.ready m.iq) ∧
  (isCsr u.dec = true ∨ u.dec.type = .amo → i.robEmpty = true)

theorem fits_empty (c : Cfg) (i : Input n) (a : Alloc n) :
    fits c i (fun _ => []) (packets a) = true ↔
      ∀ m ∈ decompose a.inst.dec, 0 < c.ports m.iq ∧ 0 < i.ready m.iq := by
  simp [fits, packets]

theorem progress (c : Cfg) (i : Input n) (b : Nat → Bool) (w : List Nat) : ∀ (l : List (Option (Inst n)))
    (k : Nat) (old : List Bool) (o : List (Alloc n)) (u : Inst n) (t : List (Inst n)),
    old.length = l.length → l.filterMap id = u :: t →
    (firedOf ((wakeGo b w o (allocGo c i l k 0 0)).zip
        (dispatchGo c i (wakeGo b w o (allocGo c i l k 0 0)) old (fun _ => [])).1)
      (fireGo i (i.flush || i.mispred || i.robStall) ((wakeGo b w o (allocGo c i l k 0 0)).zip
        (dispatchGo c i (wakeGo b w o (allocGo c i l k 0 0)) old (fun _ => [])).1) false false).1 ≠ []
      ↔ canGo c i u)
  | [], _, _, _, _, _, _, e => by simp at e
  | _ :: _, _, [], _, _, _, h, _ => by simp at h
  | none :: l, k, x :: old, o, u, t, h, e => by
    have ih := fun o => progress c i b w l (k + 1) old o u t (by simpa using h) (by simpa using e)
    simp only [allocGo, wakeGo]
    have e0 := wakeSlot_skel b w o (emptySlot c i k)
    generalize wakeSlot b w o (emptySlot c i k) = a at e0
    have e1 : a.valid = false := skel_valid e0
    have e2 : a.robValid = false := skel_robValid e0
    simp only [e1, e2, Bool.false_eq_true, if_false, dispatchGo, List.drop_succ_cons,
      List.drop_zero, List.zip_cons_cons, fireGo, Bool.false_and, Bool.not_false, Bool.or_false,
      firedOf_cons, List.nil_append]
    exact ih _
  | some v :: l, k, x :: old, o, u, t, h, e => by
    have hu : v = u := by simp at e; exact e.1
    subst hu
    simp only [allocGo, wakeGo]
    have e0 := wakeSlot_skel b w o (allocSlot c i k 0 0 v)
    generalize wakeSlot b w o (allocSlot c i k 0 0 v) = a at e0
    have e1 : a.inst.dec = v.dec := by rw [skel_inst e0]; rfl
    have e2 : a.valid = true := skel_valid e0
    have e3 : a.robValid = ((!isLoad v.dec || (isLoad v.dec && ldFits c i 0)) &&
        (!isStore v.dec || (isStore v.dec && stFits c i 0))) := skel_robValid e0
    have hf := fits_empty c i a
    rw [e1] at hf
    simp only [dispatchGo, e2, if_true]
    by_cases hfit : fits c i (fun _ => []) (packets a) = true
    · simp only [hfit, if_true, List.zip_cons_cons, fireGo, firedOf_cons, e1, e2, e3, Bool.not_false,
        Bool.and_true, Bool.true_and, Bool.or_false, Bool.false_or]
      generalize hfire : ((!isLoad v.dec || (isLoad v.dec && ldFits c i 0)) &&
        (!isStore v.dec || (isStore v.dec && stFits c i 0)) && i.robReady &&
        !(i.flush || i.mispred || i.robStall) &&
        !((isCsr v.dec || v.dec.type == .amo) && !i.robEmpty)) = fire
      have hc : fire = true ↔ canGo c i v := by
        rw [← hfire, canGo, ← hf]
        simp only [hfit, Bool.and_eq_true, Bool.or_eq_true, Bool.not_eq_true', Bool.and_eq_false_iff,
          Bool.or_eq_false_iff, true_and, Bool.not_eq_false', beq_eq_false_iff_ne]
        cases isLoad v.dec <;> cases isStore v.dec <;> cases isCsr v.dec <;> cases i.robEmpty <;>
          simp only [] <;> by_cases ht : v.dec.type = .amo <;> simp [ht] <;> grind
      cases fire with
      | true => simp [← hc]
      | false =>
        rw [← hc]
        simp only [Bool.false_eq_true, if_false, iff_false, Bool.not_false, Bool.false_and,
          Bool.or_false, List.nil_append]
        rw [fireGo_stall, firedOf_false]
        simp
    · simp only [hfit, if_false, List.zip_cons_cons, fireGo, firedOf_cons, e2, Bool.and_false,
        Bool.false_and, Bool.false_eq_true, Bool.not_false, Bool.and_true, Bool.or_true,
        List.nil_append, Bool.or_false]
      rw [fireGo_stall, firedOf_false]
      simp only [ne_eq, not_true_eq_false, false_iff]
      intro hg
      exact hfit (hf.2 hg.2.2.2.2.1)

/-! ### Reachable states -/

theorem step_length (c : Cfg) {s : State n} (h : Wf s) (i : Input n) (hw : i.ren.length = s.slots.length) :
    (step c s i).slots.length = s.slots.length := by
  simp only [step]
  split
  · simp
  · split
    · simpa using hw
    · simp [fire_length c h]

theorem wf_step (c : Cfg) {s : State n} (h : Wf s) (i : Input n) (hw : i.ren.length = s.slots.length) :
    Wf (step c s i) := by
  rw [Wf, step_length c h i hw]
  exact flags_length c h i

theorem wf_reach {c : Cfg} {W : Nat} {s : State n} (h : Reach c W s) : Wf s := by
  induction h with
  | init => simp [Wf, init]
  | step i _ hv ih => exact wf_step c ih i hv.width

/-- Instructions with a destination do not write register 0. -/
def NoX0 (s : State n) : Prop := ∀ u, some u ∈ s.slots → u.dec.destEn = true → u.dec.destAreg ≠ 0

theorem noX0_step (c : Cfg) {s : State n} (h : NoX0 s) (i : Input n)
    (hd : ∀ u, some u ∈ i.ren → u.dec.destEn = true → u.dec.destAreg ≠ 0) : NoX0 (step c s i) := by
  intro u hu
  simp only [step] at hu
  split at hu
  · simp at hu
  · split at hu
    · simp only [List.mem_map, Option.map_eq_some_iff] at hu
      obtain ⟨_, hx, y, rfl, rfl⟩ := hu
      exact hd y hx
    · simp only [List.mem_map] at hu
      obtain ⟨⟨o, f⟩, hx, e⟩ := hu
      cases f with
      | true => simp at e
      | false =>
        cases o with
        | none => simp at e
        | some y =>
          simp at e
          subst e
          exact h y (List.of_mem_zip hx).1

theorem noX0_reach {c : Cfg} {W : Nat} {s : State n} (h : Reach c W s) : NoX0 s := by
  induction h with
  | init => intro u hu; simp [init] at hu
  | step i _ hv ih => exact noX0_step c ih i hv.dest

/-! ### No instruction lost or duplicated -/

/-- Slots kept because they did not fire. -/
def keptOf (l : List (Alloc n × Bool)) (fs : List Bool) : List (Alloc n) :=
  (l.zip fs).filterMap (fun x => if x.2 then none else if x.1.1.valid then some x.1.1 else none)

theorem keptOf_cons (a : Alloc n) (ok f : Bool) (t : List (Alloc n × Bool)) (fs : List Bool) :
    keptOf ((a, ok) :: t) (f :: fs) = (if !f && a.valid then [a] else []) ++ keptOf t fs := by
  cases f <;> cases h : a.valid <;> simp [keptOf, h]

theorem keptOf_false : ∀ (l : List (Alloc n × Bool)), keptOf l (List.replicate l.length false) =
    (l.map (·.1)).filter (·.valid)
  | [] => by simp [keptOf]
  | (a, ok) :: t => by
    rw [List.length_cons, List.replicate_succ, keptOf_cons, keptOf_false t]
    cases h : a.valid <;> simp [h]

theorem fired_kept (i : Input n) (g : Bool) : ∀ (l : List (Alloc n × Bool)) st f,
    (∀ x ∈ l, x.1.robValid = true → x.1.valid = true) →
    (l.map (·.1)).filter (·.valid) =
      firedOf l (fireGo i g l st f).1 ++ keptOf l (fireGo i g l st f).1
  | [], _, _, _ => by simp [firedOf, keptOf]
  | (a, ok) :: t, st, f, h => by
    have ht : ∀ x ∈ t, x.1.robValid = true → x.1.valid = true := fun x hx => h x (by simp [hx])
    have ha : a.robValid = true → a.valid = true := h (a, ok) (by simp)
    simp only [fireGo]
    generalize hf : (a.robValid && ok && i.robReady && !st && !g &&
      !((isCsr a.inst.dec || (a.valid && a.inst.dec.type == .amo)) && (!i.robEmpty || f))) = fire
    by_cases hv : a.valid = true
    · cases fire with
      | false =>
        simp only [hv, Bool.not_false, Bool.and_true, Bool.or_true, Bool.false_and,
          Bool.or_false]
        rw [fireGo_stall, firedOf_cons, firedOf_false, keptOf_cons, keptOf_false]
        simp [hv]
      | true =>
        rw [firedOf_cons, keptOf_cons]
        have ih := fired_kept i g t (st || (a.valid && !true) ||
          (true && ((a.valid && a.inst.dec.type == .amo) || (a.valid && a.inst.dec.type == .wfi))))
          (f || true) ht
        simp only [List.map_cons, List.filter_cons, hv, if_true] at ih ⊢
        rw [ih]
        simp
    · have hr : a.robValid = false := by
        cases hr : a.robValid with
        | false => rfl
        | true => exact absurd (ha hr) hv
      have hfire : fire = false := by rw [← hf, hr]; simp
      have hv' : a.valid = false := by simpa using hv
      subst hfire
      rw [firedOf_cons, keptOf_cons]
      have ih := fired_kept i g t (st || (a.valid && !false) ||
          (false && ((a.valid && a.inst.dec.type == .amo) || (a.valid && a.inst.dec.type == .wfi))))
          (f || false) ht
      simp only [List.map_cons, List.filter_cons, hv'] at ih ⊢
      rw [if_neg (by simp), ih]
      simp

theorem alloc_kept (c : Cfg) (i : Input n) (b : Nat → Bool) (w : List Nat) :
    ∀ (l : List (Option (Inst n))) k st ld o (fl fs : List Bool), l.length ≤ fl.length →
    (keptOf ((wakeGo b w o (allocGo c i l k st ld)).zip fl) fs).map (·.inst) =
      ((l.zip fs).map (fun x => if x.2 then none else x.1.map (scrub i))).filterMap id
  | [], _, _, _, _, _, _, _ => by simp [allocGo, wakeGo, keptOf]
  | _ :: _, _, _, _, _, [], _, h => by simp at h
  | none :: l, k, st, ld, o, x :: fl, [], h => by simp [keptOf]
  | some u :: l, k, st, ld, o, x :: fl, [], h => by simp [keptOf]
  | none :: l, k, st, ld, o, x :: fl, f :: fs, h => by
    have e0 := wakeSlot_skel b w o (emptySlot c i k)
    simp only [allocGo, wakeGo, List.zip_cons_cons, keptOf_cons]
    generalize wakeSlot b w o (emptySlot c i k) = a at e0
    have e1 : a.valid = false := skel_valid e0
    have ih := alloc_kept c i b w l (k + 1) st ld (o ++ [a]) fl fs (by simpa using h)
    rw [e1, List.map_append, ih]
    cases f <;> simp
  | some u :: l, k, st, ld, o, x :: fl, f :: fs, h => by
    have e0 := wakeSlot_skel b w o (allocSlot c i k st ld u)
    simp only [allocGo, wakeGo, List.zip_cons_cons, keptOf_cons]
    generalize wakeSlot b w o (allocSlot c i k st ld u) = a at e0
    have e1 : a.valid = true := skel_valid e0
    have e2 : a.inst = scrub i u := by rw [skel_inst e0]; rfl
    have ih := alloc_kept c i b w l (k + 1) (if isStore u.dec && stFits c i st then st + 1 else st)
        (if isLoad u.dec && ldFits c i ld then ld + 1 else ld) (o ++ [a]) fl fs (by simpa using h)
    rw [e1, List.map_append, ih]
    cases f <;> simp [e2]

/-- One cycle without flush: the dispatched instructions followed by those kept are the waiting ones. -/
theorem step_waiting (c : Cfg) {s : State n} (h : Wf s) (i : Input n) (h1 : i.flush = false)
    (h2 : i.mispred = false) :
    (fired (comb c s i)).map (·.inst) ++ waiting (step c s i) =
      (waiting s).map (scrub i) ++ (received (comb c s i) i).map (scrub i) := by
  have hk := fired_kept i (i.flush || i.mispred || i.robStall)
    ((slotsOf c s i).zip (comb c s i).flags) false false (zip_robValid c s i _)
  rw [zip_fst _ _ (by rw [slots_length, flags_length c h]; exact Nat.le_refl _)] at hk
  have hk' : (slotsOf c s i).filter (·.valid) = fired (comb c s i) ++
      keptOf ((slotsOf c s i).zip (comb c s i).flags) (comb c s i).fire := by
    rw [hk, fired_eq c h]; rfl
  by_cases hr : (comb c s i).ready = true
  · obtain ⟨rest, p1, p2⟩ := fired_prefix' c h i
    rw [p2 hr, List.append_nil] at p1
    have hw := slots_waiting c s i
    rw [p1] at hw
    rw [hw]
    have e1 : waiting (step c s i) = (i.ren.map (Option.map (scrub i))).filterMap id := by
      simp [waiting, step, h1, h2, hr]
    have e2 : received (comb c s i) i = i.ren.filterMap id := by simp [received, hr]
    rw [e1, e2]
    congr 1
    generalize i.ren = l
    induction l with
    | nil => rfl
    | cons o l ih => cases o <;> simp [ih]
  · have hw := slots_waiting c s i
    rw [hk', List.map_append] at hw
    have e1 : waiting (step c s i) =
        (keptOf ((slotsOf c s i).zip (comb c s i).flags) (comb c s i).fire).map (·.inst) := by
      rw [slotsOf, alloc_kept c i s.busy i.wakes _ _ _ _ _ _ _
        (by rw [flags_length c h]; exact Nat.le_refl _)]
      simp [waiting, step, h1, h2, hr]
    have e2 : received (comb c s i) i = [] := by simp [received, hr]
    rw [e1, e2, hw]
    simp

/-! ### Positions in the load and store queues and in the reorder buffer -/

theorem fired_robValid (i : Input n) (g : Bool) : ∀ (l : List (Alloc n × Bool)) st f,
    ∀ a ∈ firedOf l (fireGo i g l st f).1, a.robValid = true
  | [], _, _, a, ha => by simp [firedOf] at ha
  | (b, ok) :: t, st, f, a, ha => by
    simp only [fireGo, firedOf_cons, List.mem_append] at ha
    rcases ha with ha | ha
    · split at ha
      · rename_i hf
        simp only [List.mem_singleton] at ha
        subst ha
        simp only [Bool.and_eq_true] at hf
        exact hf.1.1.1.1.1
      · simp at ha
    · exact fired_robValid i g t _ _ a ha

/-- What slot `a` gets when `st` stores and `ld` loads were allocated before it. -/
def Placed (c : Cfg) (i : Input n) (st ld : Nat) (a : Alloc n) : Prop :=
  (isLoad a.inst.dec = true ∨ isStore a.inst.dec = true →
    a.stqIdx = (i.stqTail + st) % c.stqSize ∧
    a.stqFlag = Bool.xor i.stqTailFlag ((i.stqTail + st) / c.stqSize % 2 == 1)) ∧
  a.stqPort = (if isStore a.inst.dec then some st else none) ∧
  a.ldqPort = (if isLoad a.inst.dec then some ld else none) ∧
  (isLoad a.inst.dec = true → a.ldqIdx = i.ldqAllocIdx ld ∧ i.ldqAllocValid ld = true ∧ ld < i.ldqFree) ∧
  (isStore a.inst.dec = true → st < i.stqFree)

theorem allocSlot_placed (c : Cfg) (i : Input n) (k st ld : Nat) (u : Inst n)
    (h : (allocSlot c i k st ld u).robValid = true) :
    Placed c i st ld (allocSlot c i k st ld u) ∧
    (if isStore u.dec && stFits c i st then st + 1 else st) = st + (if isStore u.dec then 1 else 0) ∧
    (if isLoad u.dec && ldFits c i ld then ld + 1 else ld) = ld + (if isLoad u.dec then 1 else 0) := by
  simp only [Placed, allocSlot] at h ⊢
  by_cases hl : isLoad u.dec = true <;> by_cases hs : isStore u.dec = true <;>
    simp_all [ldFits, stFits]

theorem skel_placed {c : Cfg} {i : Input n} {st ld : Nat} {a b : Alloc n} (e : skel a = skel b)
    (h : Placed c i st ld b) : Placed c i st ld a := by
  have h1 : a.stqIdx = b.stqIdx :=
    congrArg (fun x : Alloc n => x.stqIdx) (a₁ := skel a) (a₂ := skel b) e
  have h2 : a.stqFlag = b.stqFlag :=
    congrArg (fun x : Alloc n => x.stqFlag) (a₁ := skel a) (a₂ := skel b) e
  have h3 : a.ldqIdx = b.ldqIdx :=
    congrArg (fun x : Alloc n => x.ldqIdx) (a₁ := skel a) (a₂ := skel b) e
  have h4 : a.stqPort = b.stqPort :=
    congrArg (fun x : Alloc n => x.stqPort) (a₁ := skel a) (a₂ := skel b) e
  have h5 : a.ldqPort = b.ldqPort :=
    congrArg (fun x : Alloc n => x.ldqPort) (a₁ := skel a) (a₂ := skel b) e
  rw [Placed, skel_inst e, h1, h2, h3, h4, h5]
  exact h

theorem placed_go (c : Cfg) (i : Input n) (b : Nat → Bool) (w : List Nat) :
    ∀ (l : List (Option (Inst n))) k st ld o F rest,
    (wakeGo b w o (allocGo c i l k st ld)).filter (·.valid) = F ++ rest →
    (∀ a ∈ F, a.robValid = true) → ∀ pre a post, F = pre ++ a :: post →
    Placed c i (st + pre.countP (fun x => isStore x.inst.dec))
      (ld + pre.countP (fun x => isLoad x.inst.dec)) a
  | [], _, _, _, _, F, rest, h, _, pre, a, post, e => by
    subst e; simp [allocGo, wakeGo] at h
  | none :: l, k, st, ld, o, F, rest, h, hF, pre, a, post, e => by
    have e0 := wakeSlot_skel b w o (emptySlot c i k)
    simp only [allocGo, wakeGo] at h
    generalize wakeSlot b w o (emptySlot c i k) = x at e0 h
    have e1 : x.valid = false := skel_valid e0
    rw [List.filter_cons_of_neg (by simp [e1])] at h
    exact placed_go c i b w l _ _ _ _ F rest h hF pre a post e
  | some u :: l, k, st, ld, o, F, rest, h, hF, pre, a, post, e => by
    have e0 := wakeSlot_skel b w o (allocSlot c i k st ld u)
    simp only [allocGo, wakeGo] at h
    generalize wakeSlot b w o (allocSlot c i k st ld u) = x at e0 h
    have e1 : x.valid = true := skel_valid e0
    have e2 : x.inst = scrub i u := by rw [skel_inst e0]; rfl
    rw [List.filter_cons_of_pos (by simp [e1])] at h
    subst e
    cases pre with
    | nil =>
      simp only [List.nil_append, List.cons_append, List.cons.injEq] at h
      obtain ⟨rfl, h⟩ := h
      have hr : x.robValid = true := hF x (by simp)
      rw [skel_robValid e0] at hr
      exact skel_placed e0 (allocSlot_placed c i k st ld u hr).1
    | cons y pre =>
      simp only [List.cons_append, List.cons.injEq] at h
      obtain ⟨rfl, h⟩ := h
      have hr : x.robValid = true := hF x (by simp)
      rw [skel_robValid e0] at hr
      obtain ⟨_, p2, p3⟩ := allocSlot_placed c i k st ld u hr
      rw [p2, p3] at h
      have ih := placed_go c i b w l _ _ _ _ (pre ++ a :: post) rest (by simpa using h)
        (fun z hz => hF z (List.mem_cons_of_mem _ hz)) pre a post rfl
      have d1 : x.inst.dec = u.dec := by rw [e2]; rfl
      simp only [List.countP_cons, d1]
      rw [show st + (pre.countP (fun x => isStore x.inst.dec) + if isStore u.dec = true then 1 else 0) =
          st + (if isStore u.dec = true then 1 else 0) + pre.countP (fun x => isStore x.inst.dec) by omega,
        show ld + (pre.countP (fun x => isLoad x.inst.dec) + if isLoad u.dec = true then 1 else 0) =
          ld + (if isLoad u.dec = true then 1 else 0) + pre.countP (fun x => isLoad x.inst.dec) by omega]
      exact ih

theorem robIdx_go (c : Cfg) (i : Input n) (b : Nat → Bool) (w : List Nat) :
    ∀ (l : List (Option (Inst n))) k st ld o j a,
    (wakeGo b w o (allocGo c i l k st ld))[j]? = some a →
    a.robIdx = (i.robEnq * c.banks) ||| (k + j) ∧ a.robFlag = i.robFlag
  | [], _, _, _, _, j, a, h => by simp [allocGo, wakeGo] at h
  | none :: l, k, st, ld, o, 0, a, h => by
    simp only [allocGo, wakeGo, List.getElem?_cons_zero, Option.some.injEq] at h
    subst h
    exact ⟨congrArg (fun x : Alloc n => x.robIdx) (a₁ := skel _) (a₂ := skel _)
      (wakeSlot_skel b w o (emptySlot c i k)), congrArg (fun x : Alloc n => x.robFlag) (a₁ := skel _)
      (a₂ := skel _) (wakeSlot_skel b w o (emptySlot c i k))⟩
  | some u :: l, k, st, ld, o, 0, a, h => by
    simp only [allocGo, wakeGo, List.getElem?_cons_zero, Option.some.injEq] at h
    subst h
    exact ⟨congrArg (fun x : Alloc n => x.robIdx) (a₁ := skel _) (a₂ := skel _)
      (wakeSlot_skel b w o (allocSlot c i k st ld u)), congrArg (fun x : Alloc n => x.robFlag)
      (a₁ := skel _) (a₂ := skel _) (wakeSlot_skel b w o (allocSlot c i k st ld u))⟩
  | none :: l, k, st, ld, o, j + 1, a, h => by
    simp only [allocGo, wakeGo, List.getElem?_cons_succ] at h
    have := robIdx_go c i b w l _ _ _ _ j a h
    rw [show k + (j + 1) = k + 1 + j by omega]
    exact this
  | some u :: l, k, st, ld, o, j + 1, a, h => by
    simp only [allocGo, wakeGo, List.getElem?_cons_succ] at h
    have := robIdx_go c i b w l _ _ _ _ j a h
    rw [show k + (j + 1) = k + 1 + j by omega]
    exact this

/-! ### Busy flags -/

theorem wakeGo_get (b : Nat → Bool) (w : List Nat) : ∀ (l o X : List (Alloc n)) (a : Alloc n) Y,
    wakeGo b w o l = X ++ a :: Y → a.robValid = true →
    a.src1Busy = (busyBit b w a.inst.dec.src1En a.inst.src1Preg ||
      (a.inst.dec.src1En && olderWrites (o ++ X) a.inst.src1Preg)) ∧
    a.src2Busy = (busyBit b w a.inst.dec.src2En a.inst.src2Preg ||
      (a.inst.dec.src2En && olderWrites (o ++ X) a.inst.src2Preg))
  | [], _, X, a, Y, h, _ => by simp [wakeGo] at h
  | x :: l, o, [], a, Y, h, hr => by
    simp only [wakeGo, List.nil_append, List.cons.injEq] at h
    obtain ⟨rfl, _⟩ := h
    rw [skel_robValid (wakeSlot_skel b w o x)] at hr
    rw [List.append_nil, skel_inst (wakeSlot_skel b w o x)]
    simp [wakeSlot, hr]
  | x :: l, o, y :: X, a, Y, h, hr => by
    simp only [wakeGo, List.cons_append, List.cons.injEq] at h
    obtain ⟨rfl, h⟩ := h
    have := wakeGo_get b w l _ X a Y h hr
    simpa using this

theorem outstanding_snoc (log : List Event) (e : Event) (p : Nat) :
    outstanding (log ++ [e]) p = if e.reg = p then decide (e = .produce p) else outstanding log p := by
  unfold outstanding
  rw [List.filter_append]
  by_cases h : e.reg = p
  · have : [e].filter (fun e => e.reg == p) = [e] := by simp [h]
    rw [this, List.getLast?_concat, if_pos h]
    rfl
  · have : [e].filter (fun e => e.reg == p) = [] := by simp [h]
    rw [this, List.append_nil, if_neg h]

theorem outstanding_wakes (p : Nat) : ∀ (ws : List Nat) (log : List Event),
    outstanding (log ++ ws.map .wake) p = (outstanding log p && !ws.contains p)
  | [], log => by simp
  | x :: ws, log => by
    rw [List.map_cons, List.append_cons, outstanding_wakes p ws, outstanding_snoc]
    by_cases h : x = p
    · subst h; simp [Event.reg]
    · have h' : ¬ p = x := fun e => h e.symm
      simp [Event.reg, h, h']

theorem outstanding_produces (p : Nat) : ∀ (l : List (Alloc n)) (log : List Event),
    outstanding (log ++ produces l) p =
      (outstanding log p || l.any fun a => a.inst.dec.destEn && a.inst.destPreg == p)
  | [], log => by simp [produces]
  | a :: l, log => by
    by_cases hd : a.inst.dec.destEn = true
    · have e : produces (a :: l) = .produce a.inst.destPreg :: produces l := by simp [produces, hd]
      rw [e, List.append_cons, outstanding_produces p l, outstanding_snoc]
      by_cases h : a.inst.destPreg = p
      · simp [Event.reg, h, hd]
      · simp [Event.reg, h, hd, beq_eq_false_iff_ne.2 h]
    · have e : produces (a :: l) = produces l := by simp [produces, hd]
      rw [e, outstanding_produces p l]
      simp [hd]

theorem fired_any (c : Cfg) (s : State n) (i : Input n) (p : Nat) :
    ((comb c s i).alloc.zip (comb c s i).fire).any
      (fun x => x.2 && x.1.inst.dec.destEn && x.1.inst.destPreg == p) =
    (fired (comb c s i)).any (fun a => a.inst.dec.destEn && a.inst.destPreg == p) := by
  unfold fired
  generalize (comb c s i).alloc.zip (comb c s i).fire = l
  induction l with
  | nil => rfl
  | cons x l ih =>
    rcases x with ⟨a, f⟩
    cases f <;> simp_all

theorem log_busy {c : Cfg} {W : Nat} {s : State n} {log : List Event} (h : Log c W s log) (p : Nat) :
    s.busy p = outstanding log p := by
  induction h with
  | init => rfl
  | @step s log i _ _ ih =>
    rw [outstanding_produces, outstanding_wakes, ← ih]
    have : (step c s i).busy p = (((comb c s i).alloc.zip (comb c s i).fire).any
      (fun x => x.2 && x.1.inst.dec.destEn && x.1.inst.destPreg == p) ||
      (s.busy p && !i.wakes.contains p)) := rfl
    rw [this, fired_any, Bool.or_comm]

theorem log_reach {c : Cfg} {W : Nat} {s : State n} {log : List Event} (h : Log c W s log) :
    Reach c W s := by
  induction h with
  | init => exact .init
  | step i _ hv ih => exact .step i ih hv

/-- The busy flags of a dispatched slot. -/
theorem fired_busy {c : Cfg} {s : State n} (hwf : Wf s) (hx : NoX0 s) (i : Input n)
    {pre post : List (Alloc n)} {a : Alloc n} (e : fired (comb c s i) = pre ++ a :: post) :
    a.src1Busy = (a.inst.dec.src1En && ((s.busy a.inst.src1Preg && !i.wakes.contains a.inst.src1Preg) ||
      pre.any fun b => b.inst.dec.destEn && b.inst.destPreg == a.inst.src1Preg)) ∧
    a.src2Busy = (a.inst.dec.src2En && ((s.busy a.inst.src2Preg && !i.wakes.contains a.inst.src2Preg) ||
      pre.any fun b => b.inst.dec.destEn && b.inst.destPreg == a.inst.src2Preg)) := by
  obtain ⟨rest, h1, _⟩ := fired_prefix' c hwf i
  have hrv : ∀ b ∈ fired (comb c s i), b.robValid = true := by
    rw [fired_eq c hwf]
    exact fired_robValid i _ _ _ _
  have hd : ∀ b ∈ (slotsOf c s i).filter (·.valid), b.inst.dec.destEn = true →
      b.inst.dec.destAreg ≠ 0 := by
    intro b hb
    have : b.inst ∈ ((slotsOf c s i).filter (·.valid)).map (·.inst) := List.mem_map_of_mem hb
    rw [slots_waiting] at this
    obtain ⟨u, hu, e⟩ := List.mem_map.1 this
    rw [← e]
    simp only [waiting, List.mem_filterMap, id, exists_eq_right] at hu
    exact hx u hu
  rw [e, List.append_assoc] at h1
  obtain ⟨X, Y, hXY, hX, hY⟩ := List.filter_eq_append_iff.1 h1
  obtain ⟨Y1, Y2, rfl, hY1, hav, hY2⟩ := List.filter_eq_cons_iff.1 hY
  have hX' : (X ++ Y1).filter (·.valid) = pre := by
    rw [List.filter_append, hX, List.filter_eq_nil_iff.2 (by simpa using hY1), List.append_nil]
  have har : a.robValid = true := hrv a (by rw [e]; simp)
  have hw := wakeGo_get s.busy i.wakes (allocGo c i s.slots 0 0 0) [] (X ++ Y1) a Y2
    (by rw [show wakeGo s.busy i.wakes [] (allocGo c i s.slots 0 0 0) = slotsOf c s i from rfl, hXY]
        simp) har
  rw [List.nil_append] at hw
  have ho : ∀ p, olderWrites (X ++ Y1) p =
      pre.any (fun b => b.inst.dec.destEn && b.inst.destPreg == p) := by
    intro p
    have hr : ∀ b ∈ X ++ Y1, b.robValid = true → b.valid = true := fun b hb =>
      slots_robValid c s i b (by rw [hXY]; simp only [List.mem_append, List.mem_cons] at hb ⊢; grind)
    have hp : ∀ b ∈ pre, b.robValid = true ∧ (b.inst.dec.destEn = true → b.inst.dec.destAreg ≠ 0) :=
      fun b hb => ⟨hrv b (by rw [e]; simp [hb]), hd b (by rw [h1]; simp [hb])⟩
    rw [← hX'] at hp ⊢
    generalize X ++ Y1 = Z at hr hp
    unfold olderWrites
    induction Z with
    | nil => rfl
    | cons z Z ih =>
      have ih' := ih (fun b hb => hr b (by simp [hb]))
      by_cases hv : z.valid = true
      · rw [List.filter_cons_of_pos (by simp [hv])] at hp ⊢
        have hz := hp z (by simp)
        rw [List.any_cons, List.any_cons, ih' (fun b hb => hp b (by simp [hb])), hz.1]
        cases hde : z.inst.dec.destEn with
        | false => simp
        | true =>
          simp [beq_eq_false_iff_ne.2 (hz.2 hde)]
      · have hzr : z.robValid = false := by
          cases hzr : z.robValid with
          | false => rfl
          | true => exact absurd (hr z (by simp) hzr) hv
        rw [List.filter_cons_of_neg (by simp [hv])] at hp ⊢
        rw [List.any_cons, ih' hp, hzr]
        simp
  rw [hw.1, hw.2, ho, ho, busyBit, busyBit]
  constructor
  · cases a.inst.dec.src1En <;> simp
  · cases a.inst.dec.src2En <;> simp

theorem forced_iff (d : DecInst) : ∀ m ∈ decompose d,
    (m.src1BusyForced = none ↔ m.src1FromDest = false) ∧
    (m.src1FromDest = true → m.src1BusyForced = some (!(d.amoOp == 1#7)) ∧ m.iq = .std ∧
      ∃ m' ∈ decompose d, m'.iq = .ld ∧ m'.inst.destEn = d.destEn) := by
  unfold decompose
  cases d.type <;> simp only [] <;> first
    | (intro m hm; simp at hm; subst hm; simp; done)
    | (intro m hm; simp at hm; rcases hm with rfl | rfl <;> simp; done)
    | skip
  split
  · intro m hm; simp at hm; subst hm; simp
  · split
    · intro m hm; simp at hm; rcases hm with rfl | rfl <;> simp
    · intro m hm
      simp only [List.mem_cons, List.not_mem_nil, or_false] at hm
      rcases hm with rfl | rfl | rfl <;> simp

end Verif.Proofs.Dispatch

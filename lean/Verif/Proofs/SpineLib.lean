import Verif.Spec.Spine
import Verif.Proofs.Idu
import Verif.Proofs.RenSys
import Verif.Proofs.CoreFlow
import Verif.Proofs.Dispatch
import Verif.Proofs.Rob
import Verif.Props.Dispatch
import Verif.Props.DecodeLegal
/-
List lemmas about the groups that decode, rename and dispatch hand to each other.
-/
namespace Verif.SpineProofs
open Verif.Spine
open Verif.Decode (DecInst decodeEntry)
open Verif.Dispatch (expectMask)
open Verif.BranchWindow (Flight)
open Verif.RenWindow (Entry toEntry entries)

variable {n : Nat}

/-! ### A decoded instruction as an entry of the branch window -/

def latF (d : DInst n) : Flight n := ⟨d.uid, d.brMask, if isBranch d.dec then some d.brId else none⟩
def disF (info : Nat → Entry) (u : Dispatch.Inst n) : Flight n := ⟨u.ftq, u.brMask, (info u.ftq).tag⟩
def ent (info : Nat → Entry) (f : Flight n) : Entry := { info f.seq with tag := f.tag }

theorem andnot_self {a c : BitVec n} (h : ∀ t, a.getLsbD t = true → c.getLsbD t = false) : a &&& ~~~c = a := by
  apply BitVec.eq_of_getLsbD_eq
  intro t ht
  cases ha : a.getLsbD t with
  | false => simp [ha]
  | true =>
    have := h t ha
    rw [BitVec.getLsbD_and, BitVec.getLsbD_not, ha, this]; simp [ht]

theorem fm_some {α : Type} (a : α) (l : List (Option α)) : (some a :: l).filterMap id = a :: l.filterMap id := rfl

theorem number_none (m : Nat) : ∀ (ds : List (Option DecInst)) (l : List (Idu.Slot n)), (∀ sl ∈ l, sl.valid = false) →
    (Spine.number m ds l).filterMap id = [] ∧ l.filter (·.valid) = []
  | [], l, h => ⟨by simp [Spine.number], List.filter_eq_nil_iff.2 (fun a ha => by simp [h a ha])⟩
  | _ :: _, [], _ => by simp [Spine.number]
  | _ :: ds, sl :: l, h => by
    have := number_none m ds l (fun x hx => h x (List.mem_cons_of_mem _ hx))
    simp [Spine.number, h sl List.mem_cons_self, this.1]
    intro a ha; simpa using h a (List.mem_cons_of_mem _ ha)

/-- What decode hands over: numbered decoded instructions, whose masks contain no resolved branch. -/
theorem number_flights (c : BitVec n) : ∀ (ds : List (Option DecInst)) (tags : List Nat) (run : BitVec n) (m : Nat),
    (∀ t, run.getLsbD t = true → c.getLsbD t = false) → (∀ t ∈ tags, 0 < t ∧ t < n ∧ c.getLsbD t = false) →
    ((Spine.number m ds (Idu.decodeLoop (ds.map (Option.map isBranch)) tags run)).filterMap id).map
        (fun d => latF (Spine.scrub c d)) =
      BranchWindow.number m ((Idu.decodeLoop (ds.map (Option.map isBranch)) tags run).filter (·.valid)) ∧
    ∀ d ∈ (Spine.number m ds (Idu.decodeLoop (ds.map (Option.map isBranch)) tags run)).filterMap id,
      some d.dec ∈ ds ∧ (isBranch d.dec = true → d.brId ∈ tags)
  | [], tags, run, m, _, _ => by simp [Spine.number, Idu.decodeLoop, BranchWindow.number]
  | none :: ds, tags, run, m, h1, h2 => by
    obtain ⟨e1, e2⟩ := number_flights c ds tags run m h1 h2
    simp only [List.map_cons, Option.map_none, Idu.decodeLoop, Spine.number, Bool.false_eq_true, if_false]
    refine ⟨by simpa using e1, fun d hd => ?_⟩
    have := e2 d (by simpa using hd)
    exact ⟨List.mem_cons_of_mem _ this.1, this.2⟩
  | some x :: ds, tags, run, m, h1, h2 => by
    cases hb : isBranch x with
    | false =>
      obtain ⟨e1, e2⟩ := number_flights c ds tags run (m + 1) h1 h2
      simp only [List.map_cons, Option.map_some, hb, Idu.decodeLoop, Spine.number, if_true, List.filter_cons_of_pos,
        BranchWindow.number, Bool.false_eq_true, if_false, Option.getD_some]
      rw [fm_some]
      refine ⟨?_, fun d hd => ?_⟩
      · rw [List.map_cons, e1]; congr 1
        simp [latF, Spine.scrub, hb, andnot_self h1]
      · rcases List.mem_cons.1 hd with e | e
        · subst e; exact ⟨List.mem_cons_self, fun h => by simp [hb] at h⟩
        · exact ⟨List.mem_cons_of_mem _ (e2 d e).1, (e2 d e).2⟩
    | true =>
      cases tags with
      | nil =>
        have hq : ∀ sl ∈ ((⟨false, true, 0, 0#n⟩ : Idu.Slot n) ::
            (ds.map (Option.map isBranch)).map (fun e => (⟨false, e.getD false, 0, 0#n⟩ : Idu.Slot n))), sl.valid = false := by
          intro sl hsl
          rcases List.mem_cons.1 hsl with e | e
          · subst e; rfl
          · obtain ⟨y, _, rfl⟩ := List.mem_map.1 e; rfl
        simp only [List.map_cons, Option.map_some, hb, Idu.decodeLoop]
        obtain ⟨q1, q2⟩ := number_none m (some x :: ds) _ hq
        rw [q1, q2]
        exact ⟨rfl, fun d hd => by cases hd⟩
      | cons t tags =>
        have ht := h2 t List.mem_cons_self
        have h1' : ∀ u, (run ||| Idu.bit n t).getLsbD u = true → c.getLsbD u = false := by
          intro u hu
          rw [BitVec.getLsbD_or, Bool.or_eq_true] at hu
          rcases hu with hu | hu
          · exact h1 u hu
          · rw [((IduProofs.bit_getLsbD t u).1 hu).1]; exact ht.2.2
        obtain ⟨e1, e2⟩ := number_flights c ds tags _ (m + 1) h1' (fun u hu => h2 u (List.mem_cons_of_mem _ hu))
        simp only [List.map_cons, Option.map_some, hb, Idu.decodeLoop, Spine.number, if_true, List.filter_cons_of_pos,
          BranchWindow.number, Option.getD_some]
        rw [fm_some]
        refine ⟨?_, fun d hd => ?_⟩
        · rw [List.map_cons, e1]; congr 1
          simp [latF, Spine.scrub, hb, andnot_self h1]
        · rcases List.mem_cons.1 hd with e | e
          · subst e; exact ⟨List.mem_cons_self, fun _ => List.mem_cons_self⟩
          · exact ⟨List.mem_cons_of_mem _ (e2 d e).1, fun h => List.mem_cons_of_mem _ ((e2 d e).2 h)⟩

theorem number_length (m : Nat) : ∀ (ds : List (Option DecInst)) (l : List (Idu.Slot n)), l.length = ds.length →
    (Spine.number m ds l).length = ds.length
  | [], _, _ => by simp [Spine.number]
  | _ :: ds, sl :: l, h => by
    have hl : l.length = ds.length := by simpa using h
    simp only [Spine.number]
    split <;> simp [number_length _ ds l hl]
  | _ :: _, [], h => by simp at h

theorem decodeLoop_length : ∀ (es : List (Option Bool)) (tags : List Nat) (run : BitVec n),
    (Idu.decodeLoop es tags run).length = es.length
  | [], _, _ => rfl
  | none :: es, tags, run => by simp [Idu.decodeLoop, decodeLoop_length es]
  | some false :: es, tags, run => by simp [Idu.decodeLoop, decodeLoop_length es]
  | some true :: es, t :: tags, run => by simp [Idu.decodeLoop, decodeLoop_length es]
  | some true :: es, [], run => by simp [Idu.decodeLoop]

theorem slotTags_flights (l : List (Option (DInst n))) :
    RenWindow.slotTags (l.map (Option.map toInst)) = ((l.filterMap id).map latF).filterMap (·.tag) := by
  unfold RenWindow.slotTags
  induction l with
  | nil => rfl
  | cons o l ih =>
    cases o with
    | none => simpa using ih
    | some d =>
      simp only [List.map_cons, Option.map_some, List.filterMap_cons, id, Option.bind_some, latF, toInst] at ih ⊢
      rw [ih]

/-! ### The group rename hands to dispatch -/

/-- The instructions handed over, with their slots. -/
def taken : List Ren.Slot → List (Option (DInst n)) → List (DInst n × Ren.Slot)
  | sl :: r, d :: ds => (d.bind fun d => if sl.valid then some (d, sl) else none).toList ++ taken r ds
  | _, _ => []

def entOf (x : DInst n × Ren.Slot) : Entry :=
  ⟨x.1.dec.destEn, x.1.dec.destAreg, x.2.dest, x.2.old, if isBranch x.1.dec then some x.1.brId else none⟩
def disOf (x : DInst n × Ren.Slot) : Dispatch.Inst n := ⟨x.1.dec, x.2.dest, x.2.p1, x.2.p2, x.1.brMask, x.1.uid⟩

/-- The latches after the hand-over, before masks are cleared. -/
def kept (slots : List Ren.Slot) (lat : List (Option (DInst n))) : List (Option (DInst n)) :=
  List.zipWith (fun sl d => if sl.valid then none else d) slots lat

theorem group_facts : ∀ (slots : List Ren.Slot) (lat : List (Option (DInst n))),
    slots.map Ren.Slot.inst = lat.map (Option.map toInst) → Core.Prefix slots →
    entries slots = (taken slots lat).map entOf ∧
    records slots lat = (taken slots lat).map (fun x => (x.1.uid, entOf x)) ∧
    (renOut slots lat).filterMap id = (taken slots lat).map disOf ∧
    (renOut slots lat).length = lat.length ∧
    lat.filterMap id = (taken slots lat).map Prod.fst ++ (kept slots lat).filterMap id ∧
    (slots.all (fun sl => Ren.fires true sl || sl.inst.isNone) = true → (kept slots lat).filterMap id = [])
  | [], [], _, _ => by simp [entries, taken, records, renOut, kept]
  | [], _ :: _, h, _ => by simp at h
  | _ :: _, [], h, _ => by simp at h
  | sl :: r, d :: ds, h, hp => by
    simp only [List.map_cons, List.cons.injEq] at h
    obtain ⟨p1, p2, p3⟩ := hp
    obtain ⟨e1, e2, e3, e4, e5, e6⟩ := group_facts r ds h.2 p3
    cases d with
    | none =>
      have hi : sl.inst = none := h.1
      have hv := p2 hi
      refine ⟨?_, ?_, ?_, ?_, ?_, ?_⟩
      · simp only [entries, taken] at e1 ⊢
        simp [toEntry, hi, e1]
      · simp [records, taken, e2]
      · simp [renOut, taken, e3]
      · simp [renOut, e4]
      · simp only [List.filterMap_cons, id, taken, kept, List.zipWith_cons_cons, hv] at e5 ⊢
        simpa using e5
      · intro ha
        simp only [List.all_cons, Bool.and_eq_true] at ha
        have := e6 ha.2
        simp only [kept, List.zipWith_cons_cons, hv] at this ⊢
        simpa using this
    | some d =>
      have hi : sl.inst = some (toInst d) := h.1
      cases hv : sl.valid with
      | true =>
        refine ⟨?_, ?_, ?_, ?_, ?_, ?_⟩
        · simp only [entries, taken] at e1 ⊢
          simp [toEntry, hi, hv, e1, entOf, toInst]
        · simp [records, taken, e2, hv, toEntry, hi, entOf, toInst]
        · simp [renOut, taken, e3, hv, disOf]
        · simp [renOut, e4]
        · simp only [List.filterMap_cons, id, taken, kept, List.zipWith_cons_cons, hv] at e5 ⊢
          simpa using e5
        · intro ha
          simp only [List.all_cons, Bool.and_eq_true] at ha
          have := e6 ha.2
          simp only [kept, List.zipWith_cons_cons, hv] at this ⊢
          simpa using this
      | false =>
        have hq := p1 (by simp [hi]) hv
        have ht : taken r ds = [] := by
          rw [← List.map_eq_nil_iff (f := entOf), ← e1]
          unfold entries
          rw [List.filterMap_eq_nil_iff]
          intro x hx
          have := hq x hx
          unfold toEntry
          split
          · rfl
          · simp [this]
        rw [ht] at e1 e2 e3 e5
        refine ⟨?_, ?_, ?_, ?_, ?_, ?_⟩
        · simp only [entries, taken] at e1 ⊢
          simp [toEntry, hi, hv, e1, ht]
        · simp [records, taken, e2, hv, toEntry, hi, ht]
        · simp [renOut, taken, e3, hv, ht]
        · simp [renOut, e4]
        · simp only [List.filterMap_cons, id, taken, kept, List.zipWith_cons_cons, hv, ht] at e5 ⊢
          simpa using e5
        · intro ha
          simp [Ren.fires, hv, hi] at ha

theorem find_nodup {α : Type} : ∀ (l : List (Nat × α)) {a : Nat} {b : α}, (l.map Prod.fst).Nodup → (a, b) ∈ l →
    l.find? (fun x => x.1 == a) = some (a, b)
  | [], _, _, _, h => by cases h
  | x :: l, a, b, hn, h => by
    rw [List.map_cons, List.nodup_cons] at hn
    rw [List.find?_cons]
    rcases List.mem_cons.1 h with e | e
    · subst e; simp
    · have hne : x.1 ≠ a := by
        intro he; apply hn.1; rw [he]; exact List.mem_map.2 ⟨(a, b), e, rfl⟩
      have : (x.1 == a) = false := by simpa using hne
      rw [this]
      exact find_nodup l hn.2 e

theorem find_absent {α : Type} (l : List (Nat × α)) {a : Nat} (h : a ∉ l.map Prod.fst) :
    l.find? (fun x => x.1 == a) = none := by
  rw [List.find?_eq_none]
  intro x hx he
  apply h
  have : x.1 = a := by simpa using he
  rw [← this]; exact List.mem_map.2 ⟨x, hx, rfl⟩

/-! ### The row dispatch hands to the reorder buffer -/

theorem row_fired (o : Dispatch.Out n) : (fireRow o).filterMap id = (DispatchGroup.fired o).map toUop := by
  unfold fireRow DispatchGroup.fired
  rw [List.filterMap_map, List.map_filterMap]
  congr 1
  funext x
  cases h : x.2 <;> simp [h]

theorem expect_branch {d : DecInst} (h : isBranch d = true) : (expectMask d).getLsbD 1 = true := by
  unfold isBranch at h
  simp only [Bool.or_eq_true, beq_iff_eq] at h
  rcases h with h | h <;> simp [expectMask, h, Decode.decompose, Dispatch.cpltGroup]

theorem sig_uop (a : Dispatch.Alloc n) :
    RobQueue.sig (toUop a) = (a.inst.ftq, a.robIdx, a.robFlag, tyOf a.inst.dec.type, expectMask a.inst.dec) := rfl

theorem fold_bit (r : Nat) : ∀ (l : List Rob.Wb) (m : BitVec 3),
    (l.foldl (fun m w => if w.robIdx = r then m ||| w.bit else m) m).getLsbD 1 = true ↔
      m.getLsbD 1 = true ∨ ∃ w ∈ l, w.robIdx = r ∧ w.bit.getLsbD 1 = true
  | [], m => by simp
  | w :: l, m => by
    rw [List.foldl_cons, fold_bit r l]
    by_cases h : w.robIdx = r
    · rw [if_pos h, BitVec.getLsbD_or, Bool.or_eq_true]
      constructor
      · rintro ((a | a) | ⟨x, a, b⟩)
        · exact .inl a
        · exact .inr ⟨w, List.mem_cons_self, h, a⟩
        · exact .inr ⟨x, List.mem_cons_of_mem _ a, b⟩
      · rintro (a | ⟨x, a, b⟩)
        · exact .inl (.inl a)
        · rcases List.mem_cons.1 a with e | e
          · subst e; exact .inl (.inr b.2)
          · exact .inr ⟨x, e, b⟩
    · rw [if_neg h]
      constructor
      · rintro (a | ⟨x, a, b⟩)
        · exact .inl a
        · exact .inr ⟨x, List.mem_cons_of_mem _ a, b⟩
      · rintro (a | ⟨x, a, b⟩)
        · exact .inl a
        · rcases List.mem_cons.1 a with e | e
          · subst e; exact absurd b.1 h
          · exact .inr ⟨x, e, b⟩

theorem arb_clear (res : List (Exu.Op n)) (k : Nat) (hk : k < n) :
    (res.foldl Exu.arbStep ⟨0#n, none⟩).clear.getLsbD k = true ↔ ∃ u ∈ res, u.brId = k := by
  have key : ∀ (l : List (Exu.Op n)) (a : Exu.Arb n),
      (l.foldl Exu.arbStep a).clear.getLsbD k = true ↔ a.clear.getLsbD k = true ∨ ∃ u ∈ l, u.brId = k := by
    intro l
    induction l with
    | nil => intro a; simp
    | cons u l ih =>
      intro a
      rw [List.foldl_cons, ih]
      have : (Exu.arbStep a u).clear.getLsbD k = (a.clear.getLsbD k || decide (u.brId = k)) := by
        simp only [Exu.arbStep, BitVec.getLsbD_or, BitVec.getLsbD_shiftLeft, BitVec.getLsbD_one, hk,
          decide_true, Bool.true_and]
        congr 1
        rcases Nat.lt_trichotomy u.brId k with h | h | h
        · have h1 : ¬ (k - u.brId = 0) := by omega
          have h2 : ¬ (u.brId = k) := by omega
          simp [h1, h2, Nat.not_lt.2 (Nat.le_of_lt h)]
        · subst h
          simp [Nat.zero_lt_of_lt hk]
        · have h2 : ¬ (u.brId = k) := by omega
          simp [h, h2]
      rw [this]
      simp only [Bool.or_eq_true, decide_eq_true_eq, List.mem_cons, exists_eq_or_imp, or_assoc]
  rw [key]; simp

theorem arb_worst {w : Exu.Op n} : ∀ (l : List (Exu.Op n)) (a : Exu.Arb n), (l.foldl Exu.arbStep a).worst = some w →
    a.worst = some w ∨ (w ∈ l ∧ w.mispred = true)
  | [], _, h => .inl h
  | u :: l, a, h => by
    rw [List.foldl_cons] at h
    rcases arb_worst l _ h with e | e
    · unfold Exu.arbStep at e
      simp only at e
      split at e
      · rename_i hm
        split at e
        · cases e; exact .inr ⟨List.mem_cons_self, hm⟩
        · rename_i x hx
          split at e
          · cases e; exact .inr ⟨List.mem_cons_self, hm⟩
          · cases e; exact .inl hx
      · exact .inl e
    · exact .inr ⟨List.mem_cons_of_mem _ e.1, e.2⟩

end Verif.SpineProofs

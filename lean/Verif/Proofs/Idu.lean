import Verif.Spec.BranchWindow
namespace Verif.IduProofs
open Verif.Idu Verif.BranchWindow

structure Core {n : Nat} (s : State n) (win : List (Flight n)) (next : Nat) : Prop where
  free : ∀ t, s.tagFree t = true ↔ (0 < t ∧ t < n ∧ s.now.getLsbD t = false)
  now0 : s.now.getLsbD 0 = false
  own : ∀ t, s.now.getLsbD t = true ↔ ∃ f ∈ win, f.tag = some t
  uniq : ∀ f ∈ win, ∀ g ∈ win, ∀ t, f.tag = some t → g.tag = some t → f.seq = g.seq
  sorted : win.Pairwise (fun a b => a.seq < b.seq)
  lt : ∀ f ∈ win, f.seq < next
  mask : ∀ f ∈ win, ∀ t, f.mask.getLsbD t = true ↔ ∃ g ∈ win, g.seq < f.seq ∧ g.tag = some t
  cp : ∀ f ∈ win, ∀ t, f.tag = some t → ∀ u, (s.cp t).getLsbD u = true ↔
    ∃ g ∈ win, g.seq ≤ f.seq ∧ g.tag = some u

variable {n : Nat}

theorem Core.tag_pos {s : State n} {win next} (h : Core s win next) {f : Flight n} (hf : f ∈ win)
    {t : Nat} (ht : f.tag = some t) : 0 < t ∧ t < n := by
  have h1 := (h.own t).2 ⟨f, hf, ht⟩
  refine ⟨?_, ?_⟩
  · rcases Nat.eq_zero_or_pos t with h0 | h0
    · subst h0; rw [h.now0] at h1; cases h1
    · exact h0
  · exact BitVec.lt_of_getLsbD h1

theorem seq_inj {win : List (Flight n)} (hs : win.Pairwise (fun a b => a.seq < b.seq))
    {f g : Flight n} (hf : f ∈ win) (hg : g ∈ win) (h : f.seq = g.seq) : f = g := by
  induction win with
  | nil => cases hf
  | cons a l ih =>
    rw [List.pairwise_cons] at hs
    rcases List.mem_cons.1 hf with hfe | hf' <;> rcases List.mem_cons.1 hg with hge | hg'
    · rw [hfe, hge]
    · have := hs.1 g hg'; rw [← hfe] at this; omega
    · have := hs.1 f hf'; rw [← hge] at this; omega
    · exact ih hs.2 hf' hg'

theorem bit_getLsbD (t u : Nat) : (bit n t).getLsbD u = true ↔ u = t ∧ t < n := by
  unfold bit
  rw [BitVec.getLsbD_twoPow, Bool.and_eq_true, decide_eq_true_eq, decide_eq_true_eq]
  constructor <;> (rintro ⟨a, b⟩; omega)

theorem andnot_iff (a b : BitVec n) (t : Nat) :
    (a &&& ~~~b).getLsbD t = true ↔ a.getLsbD t = true ∧ b.getLsbD t = false := by
  rw [BitVec.getLsbD_and, BitVec.getLsbD_not, Bool.and_eq_true, Bool.and_eq_true,
    decide_eq_true_eq, Bool.not_eq_true']
  constructor
  · rintro ⟨h1, -, h3⟩; exact ⟨h1, h3⟩
  · rintro ⟨h1, h3⟩; exact ⟨h1, BitVec.lt_of_getLsbD h1, h3⟩

/-! ### appending decoded instructions -/

theorem core_push {s : State n} {win next} (h : Core s win next) :
    Core s (win ++ [⟨next, s.now, none⟩]) (next + 1) where
  free := h.free
  now0 := h.now0
  own t := by
    rw [h.own]
    constructor
    · rintro ⟨f, hf, ht⟩; exact ⟨f, by simp [hf], ht⟩
    · rintro ⟨f, hf, ht⟩
      rcases List.mem_append.1 hf with hf | hf
      · exact ⟨f, hf, ht⟩
      · simp at hf; subst hf; cases ht
  uniq f hf g hg t h1 h2 := by
    rcases List.mem_append.1 hf with hf | hf <;> rcases List.mem_append.1 hg with hg | hg
    · exact h.uniq f hf g hg t h1 h2
    all_goals simp at hf hg; try subst hf
    all_goals try subst hg
    all_goals first | rfl | cases h1 | cases h2
  sorted := by
    rw [List.pairwise_append]
    refine ⟨h.sorted, by simp, ?_⟩
    intro a ha b hb; simp at hb; subst hb; exact h.lt a ha
  lt f hf := by
    rcases List.mem_append.1 hf with hf | hf
    · have := h.lt f hf; omega
    · simp at hf; subst hf; simp
  mask f hf t := by
    rcases List.mem_append.1 hf with hf | hf
    · rw [h.mask f hf t]
      constructor
      · rintro ⟨g, hg, h1, h2⟩; exact ⟨g, by simp [hg], h1, h2⟩
      · rintro ⟨g, hg, h1, h2⟩
        rcases List.mem_append.1 hg with hg | hg
        · exact ⟨g, hg, h1, h2⟩
        · simp at hg; subst hg; cases h2
    · simp at hf; subst hf
      rw [h.own]
      constructor
      · rintro ⟨g, hg, h2⟩; exact ⟨g, by simp [hg], h.lt g hg, h2⟩
      · rintro ⟨g, hg, h1, h2⟩
        rcases List.mem_append.1 hg with hg | hg
        · exact ⟨g, hg, h2⟩
        · simp at hg; subst hg; cases h2
  cp f hf t ht u := by
    rcases List.mem_append.1 hf with hf | hf
    · rw [h.cp f hf t ht u]
      constructor
      · rintro ⟨g, hg, h1, h2⟩; exact ⟨g, by simp [hg], h1, h2⟩
      · rintro ⟨g, hg, h1, h2⟩
        rcases List.mem_append.1 hg with hg | hg
        · exact ⟨g, hg, h1, h2⟩
        · simp at hg; subst hg; cases h2
    · simp at hf; subst hf; cases ht

theorem core_pushBr {s : State n} {win next t} (h : Core s win next)
    (ht : 0 < t ∧ t < n ∧ s.now.getLsbD t = false) :
    Core { s with tagFree := fun i => if i = t then false else s.tagFree i
                  now := s.now ||| bit n t
                  cp := fun i => if i = t then s.now ||| bit n t else s.cp i }
      (win ++ [⟨next, s.now, some t⟩]) (next + 1) := by
  have hnow : ∀ u, (s.now ||| bit n t).getLsbD u = true ↔ (s.now.getLsbD u = true ∨ u = t) := by
    intro u
    rw [BitVec.getLsbD_or, Bool.or_eq_true, bit_getLsbD]
    simp [ht.2.1]
  have hnt : ∀ f ∈ win, f.tag ≠ some t := by
    intro f hf he
    have := (h.own t).2 ⟨f, hf, he⟩
    rw [ht.2.2] at this; cases this
  have mem : ∀ f : Flight n, f ∈ win ++ [⟨next, s.now, some t⟩] ↔
      f ∈ win ∨ f = ⟨next, s.now, some t⟩ := by intro f; simp
  refine ⟨?_, ?_, ?_, ?_, ?_, ?_, ?_, ?_⟩
  · intro u
    simp only
    by_cases hu : u = t
    · subst hu
      simp only [if_true, Bool.false_eq_true, false_iff]
      rintro ⟨-, -, hh⟩
      rw [(hnow u).2 (Or.inr rfl)] at hh; cases hh
    · rw [if_neg hu, h.free]
      constructor
      · rintro ⟨a, b, c⟩
        refine ⟨a, b, ?_⟩
        rw [Bool.eq_false_iff]; intro hh
        rcases (hnow u).1 hh with hh | hh
        · rw [c] at hh; cases hh
        · exact hu hh
      · rintro ⟨a, b, c⟩
        refine ⟨a, b, ?_⟩
        rw [Bool.eq_false_iff] at c ⊢
        exact fun hh => c ((hnow u).2 (Or.inl hh))
  · rw [Bool.eq_false_iff]; intro hh
    rcases (hnow 0).1 hh with hh | hh
    · rw [h.now0] at hh; cases hh
    · omega
  · intro u
    simp only
    rw [hnow, h.own]
    constructor
    · rintro (⟨f, hf, hh⟩ | rfl)
      · exact ⟨f, by simp [hf], hh⟩
      · exact ⟨⟨next, s.now, some u⟩, by simp, rfl⟩
    · rintro ⟨f, hf, hh⟩
      rcases (mem f).1 hf with hf | rfl
      · exact Or.inl ⟨f, hf, hh⟩
      · right; simpa [eq_comm] using hh
  · intro f hf g hg u h1 h2
    rcases (mem f).1 hf with hf' | hfe <;> rcases (mem g).1 hg with hg' | hge
    · exact h.uniq f hf' g hg' u h1 h2
    · rw [hge] at h2; simp at h2; subst h2; exact absurd h1 (hnt f hf')
    · rw [hfe] at h1; simp at h1; subst h1; exact absurd h2 (hnt g hg')
    · rw [hfe, hge]
  · rw [List.pairwise_append]
    refine ⟨h.sorted, by simp, ?_⟩
    intro a ha b hb; simp at hb; subst hb; exact h.lt a ha
  · intro f hf
    rcases (mem f).1 hf with hf | rfl
    · have := h.lt f hf; omega
    · simp
  · intro f hf u
    rcases (mem f).1 hf with hf | rfl
    · rw [h.mask f hf u]
      constructor
      · rintro ⟨g, hg, h1, h2⟩; exact ⟨g, by simp [hg], h1, h2⟩
      · rintro ⟨g, hg, h1, h2⟩
        rcases (mem g).1 hg with hg | rfl
        · exact ⟨g, hg, h1, h2⟩
        · have := h.lt f hf; simp at h1; omega
    · simp only
      rw [h.own]
      constructor
      · rintro ⟨g, hg, h2⟩; exact ⟨g, by simp [hg], h.lt g hg, h2⟩
      · rintro ⟨g, hg, h1, h2⟩
        rcases (mem g).1 hg with hg | rfl
        · exact ⟨g, hg, h2⟩
        · simp at h1
  · intro f hf u hu v
    simp only
    rcases (mem f).1 hf with hf | rfl
    · have hne : u ≠ t := fun e => hnt f hf (e ▸ hu)
      rw [if_neg hne, h.cp f hf u hu v]
      constructor
      · rintro ⟨g, hg, h1, h2⟩; exact ⟨g, by simp [hg], h1, h2⟩
      · rintro ⟨g, hg, h1, h2⟩
        rcases (mem g).1 hg with hg | rfl
        · exact ⟨g, hg, h1, h2⟩
        · have := h.lt f hf; simp at h1; omega
    · simp at hu; subst hu
      rw [if_pos rfl, hnow, h.own]
      constructor
      · rintro (⟨g, hg, h2⟩ | rfl)
        · exact ⟨g, by simp [hg], Nat.le_of_lt (h.lt g hg), h2⟩
        · exact ⟨⟨next, s.now, some v⟩, by simp, Nat.le_refl _, rfl⟩
      · rintro ⟨g, hg, h1, h2⟩
        rcases (mem g).1 hg with hg | rfl
        · exact Or.inl ⟨g, hg, h2⟩
        · right; simpa [eq_comm] using h2

theorem fireLoop_invalid (es : List (Option Bool)) (tags : List Nat) (s : State n) :
    fireLoop (es.map (fun e => (⟨false, e.getD false, 0, 0#n⟩ : Slot n))) tags s = s := by
  induction es with
  | nil => rfl
  | cons e es ih => simp only [List.map_cons, fireLoop, Bool.false_and, Bool.false_eq_true, if_false]; exact ih

theorem filter_invalid (es : List (Option Bool)) :
    (es.map (fun e => (⟨false, e.getD false, 0, 0#n⟩ : Slot n))).filter (·.valid) = [] := by
  induction es with
  | nil => rfl
  | cons e es ih => simp

theorem fire_core (es : List (Option Bool)) : ∀ (tags : List Nat) (s : State n) (win next),
    Core s win next → tags.Nodup → (∀ t ∈ tags, 0 < t ∧ t < n ∧ s.now.getLsbD t = false) →
    Core (fireLoop (decodeLoop es tags s.now) tags s)
      (win ++ number next ((decodeLoop es tags s.now).filter (·.valid)))
      (next + ((decodeLoop es tags s.now).filter (·.valid)).length) := by
  induction es with
  | nil => intro tags s win next h _ _; simpa [decodeLoop, fireLoop, number] using h
  | cons e es ih =>
    intro tags s win next h hnd ht
    cases e with
    | none =>
      simp only [decodeLoop, fireLoop, Bool.false_and, Bool.false_eq_true, if_false,
        List.filter_cons]
      exact ih tags s win next h hnd ht
    | some br =>
      cases br with
      | false =>
        simp only [decodeLoop, fireLoop, Bool.and_false, Bool.false_eq_true, if_false,
          List.filter_cons, if_true, number, List.length_cons]
        have := ih tags s _ _ (core_push h) hnd ht
        rw [List.append_assoc] at this
        rw [show next + ((decodeLoop es tags s.now).filter (·.valid)).length.succ =
          next + 1 + ((decodeLoop es tags s.now).filter (·.valid)).length by omega]
        exact this
      | true =>
        cases tags with
        | nil =>
          simp only [decodeLoop, fireLoop, Bool.false_and, Bool.false_eq_true, if_false,
            List.filter_cons, fireLoop_invalid, filter_invalid, number, List.append_nil,
            List.length_nil]
          exact h
        | cons t tags =>
          simp only [decodeLoop, fireLoop, Bool.and_self, if_true, List.filter_cons, number,
            List.length_cons, List.headD_cons, List.tail_cons]
          rw [List.nodup_cons] at hnd
          have h' := core_pushBr h (ht t (by simp))
          have := ih tags _ _ _ h' hnd.2 (by
            intro u hu
            have := ht u (by simp [hu])
            refine ⟨this.1, this.2.1, ?_⟩
            rw [Bool.eq_false_iff, BitVec.getLsbD_or]
            intro hh
            rw [Bool.or_eq_true] at hh
            rcases hh with hh | hh
            · rw [this.2.2] at hh; cases hh
            · rw [bit_getLsbD] at hh; exact hnd.1 (hh.1 ▸ hu))
          rw [List.append_assoc] at this
          simp only at this
          rw [show next + (((decodeLoop es tags (s.now ||| bit n t)).filter (·.valid)).length + 1) =
            next + 1 + ((decodeLoop es tags (s.now ||| bit n t)).filter (·.valid)).length by omega]
          exact this

/-! ### retirement -/

theorem core_drop {s : State n} {win next} (h : Core s win next) (k : Nat)
    (hr : ∀ f ∈ win.take k, f.tag = none) : Core s (win.drop k) next := by
  have mem : ∀ f : Flight n, f.tag ≠ none → (f ∈ win.drop k ↔ f ∈ win) := by
    intro f hf
    constructor
    · exact List.mem_of_mem_drop
    · intro hm
      rw [← List.take_append_drop k win, List.mem_append] at hm
      rcases hm with hm | hm
      · exact absurd (hr f hm) hf
      · exact hm
  have sub : ∀ f, f ∈ win.drop k → f ∈ win := fun f => List.mem_of_mem_drop
  have some_ne : ∀ {f : Flight n} {t : Nat}, f.tag = some t → f.tag ≠ none := by
    intro f t h; rw [h]; simp
  refine ⟨h.free, h.now0, ?_, ?_, ?_, ?_, ?_, ?_⟩
  · intro t; rw [h.own]
    constructor
    · rintro ⟨f, hf, ht⟩; exact ⟨f, (mem f (some_ne ht)).2 hf, ht⟩
    · rintro ⟨f, hf, ht⟩; exact ⟨f, sub f hf, ht⟩
  · exact fun f hf g hg => h.uniq f (sub f hf) g (sub g hg)
  · exact h.sorted.sublist (List.drop_sublist _ _)
  · exact fun f hf => h.lt f (sub f hf)
  · intro f hf t; rw [h.mask f (sub f hf)]
    constructor
    · rintro ⟨g, hg, h1, ht⟩; exact ⟨g, (mem g (some_ne ht)).2 hg, h1, ht⟩
    · rintro ⟨g, hg, h1, ht⟩; exact ⟨g, sub g hg, h1, ht⟩
  · intro f hf t ht u; rw [h.cp f (sub f hf) t ht]
    constructor
    · rintro ⟨g, hg, h1, ht⟩; exact ⟨g, (mem g (some_ne ht)).2 hg, h1, ht⟩
    · rintro ⟨g, hg, h1, ht⟩; exact ⟨g, sub g hg, h1, ht⟩

/-! ### the whole invariant -/

structure Inv (s : Sys n) : Prop where
  core : Core s.idu s.win s.next
  clear : ∀ t, 0 < t → s.idu.latch.clear.getLsbD t = true → ∃ f ∈ s.win, f.tag = some t
  mis : s.idu.latch.mispred = true → 0 < s.idu.latch.brId ∧ s.idu.latch.clear.getLsbD s.idu.latch.brId = true

theorem Inv.br {s : Sys n} (h : Inv s) (hm : s.idu.latch.mispred = true) :
    ∃ b ∈ s.win, b.tag = some s.idu.latch.brId := h.clear _ (h.mis hm).1 (h.mis hm).2

theorem and_bit_ne (m : BitVec n) (t : Nat) (ht : t < n) :
    (m &&& bit n t ≠ 0#n) ↔ m.getLsbD t = true := by
  constructor
  · intro h
    cases hm : m.getLsbD t
    · exfalso
      apply h
      apply BitVec.eq_of_getLsbD_eq
      intro i hi
      rw [BitVec.getLsbD_and, BitVec.getLsbD_zero]
      cases hb : (bit n t).getLsbD i
      · simp
      · have := (bit_getLsbD t i).1 hb
        rw [this.1, hm]; rfl
    · rfl
  · intro h h0
    have := congrArg (fun b => b.getLsbD t) h0
    simp only [BitVec.getLsbD_and, h, BitVec.getLsbD_zero, Bool.true_and] at this
    have h2 := (bit_getLsbD (n := n) t t).2 ⟨rfl, ht⟩
    rw [this] at h2; cases h2

/-- Who is killed: exactly the younger instructions. -/
theorem killed_iff {s : Sys n} (h : Inv s) (hm : s.idu.latch.mispred = true) {b : Flight n}
    (hb : b ∈ s.win) (hbt : b.tag = some s.idu.latch.brId) {f : Flight n} (hf : f ∈ s.win) :
    killed (combBranch s.idu) f = true ↔ b.seq < f.seq := by
  have hlt := (h.core.tag_pos hb hbt).2
  simp only [killed, combBranch, hm, if_true, Bool.true_and, decide_eq_true_eq]
  rw [and_bit_ne _ _ hlt, h.core.mask f hf]
  constructor
  · rintro ⟨g, hg, h1, h2⟩
    rw [h.core.uniq b hb g hg _ hbt h2]; exact h1
  · intro h1; exact ⟨b, hb, h1, hbt⟩

theorem not_killed {s : Sys n} (hm : s.idu.latch.mispred = false) (f : Flight n) :
    killed (combBranch s.idu) f = false := by
  simp [killed, combBranch, hm]

theorem bcast_clear (s : State n) : (combBranch s).clear = s.latch.clear := by
  unfold combBranch; split <;> rfl

/-- Membership in the window after the broadcast. -/
theorem mem_after {s : Sys n} {f' : Flight n} : f' ∈ afterBcast s ↔
    ∃ f ∈ s.win, killed (combBranch s.idu) f = false ∧ survive (combBranch s.idu) f = f' := by
  simp [afterBcast, and_assoc]

theorem survive_tag {s : State n} {f : Flight n} {t : Nat} :
    (survive (combBranch s) f).tag = some t ↔ f.tag = some t ∧ s.latch.clear.getLsbD t = false := by
  simp only [survive, bcast_clear]
  cases h : f.tag with
  | none => simp
  | some u =>
    rw [Option.filter_some]
    split
    · rename_i hc
      simp only [Bool.not_eq_true'] at hc
      constructor
      · rintro h; cases h; exact ⟨rfl, hc⟩
      · rintro ⟨h, -⟩; exact h
    · rename_i hc
      simp at hc
      constructor
      · intro h; cases h
      · rintro ⟨h, h2⟩; cases h; rw [hc] at h2; cases h2

theorem applyClear_now {s : State n} (h0 : s.now.getLsbD 0 = false) (t : Nat) :
    (applyClear s).now.getLsbD t = true ↔
      s.now.getLsbD t = true ∧ s.latch.clear.getLsbD t = false := by
  unfold applyClear
  simp only
  rw [andnot_iff]
  refine and_congr_right fun hn => ?_
  rw [Bool.eq_false_iff, Bool.eq_false_iff, ne_eq, ne_eq, andnot_iff]
  refine not_congr ?_
  constructor
  · exact fun h => h.1
  · intro h
    refine ⟨h, ?_⟩
    rw [Bool.eq_false_iff]; intro hh
    rw [((bit_getLsbD 0 t).1 hh).1, h0] at hn; cases hn

/-- The state after tag release / recovery matches the window after the broadcast. -/
theorem core_bcast {s : Sys n} (h : Inv s) (s' : State n)
    (hnow : ∀ t, s'.now.getLsbD t = true ↔ s.idu.now.getLsbD t = true ∧
      s.idu.latch.clear.getLsbD t = false ∧
      (s.idu.latch.mispred = true → (s.idu.cp s.idu.latch.brId).getLsbD t = true))
    (hfree : ∀ t, s'.tagFree t = true ↔ (0 < t ∧ t < n ∧ s'.now.getLsbD t = false))
    (hcp : ∀ t, 0 < t → t < n → s'.cp t = s.idu.cp t &&& ~~~s.idu.latch.clear) :
    Core s' (afterBcast s) s.next := by
  -- who stays
  have stay : ∀ f ∈ s.win, killed (combBranch s.idu) f = false ↔
      ∀ b ∈ s.win, s.idu.latch.mispred = true → b.tag = some s.idu.latch.brId → f.seq ≤ b.seq := by
    intro f hf
    cases hm : s.idu.latch.mispred
    · simp [not_killed hm]
    · constructor
      · intro hk b hb _ hbt
        have := killed_iff h hm hb hbt hf
        rw [hk] at this; simp at this; exact this
      · intro hh
        obtain ⟨b, hb, hbt⟩ := h.br hm
        have h1 := hh b hb rfl hbt
        have h2 := killed_iff h hm hb hbt hf
        rw [Bool.eq_false_iff]; intro hk; have := h2.1 hk; omega
  have down : ∀ f ∈ s.win, ∀ g ∈ s.win, g.seq ≤ f.seq → killed (combBranch s.idu) f = false →
      killed (combBranch s.idu) g = false := by
    intro f hf g hg hle hk
    rw [stay g hg]; rw [stay f hf] at hk
    intro b hb hm hbt; have := hk b hb hm hbt; omega
  -- own, as a lemma
  have own' : ∀ t, s'.now.getLsbD t = true ↔ ∃ f ∈ s.win, killed (combBranch s.idu) f = false ∧
      f.tag = some t ∧ s.idu.latch.clear.getLsbD t = false := by
    intro t
    rw [hnow, h.core.own]
    constructor
    · rintro ⟨⟨f, hf, ht⟩, hc, hcp⟩
      refine ⟨f, hf, ?_, ht, hc⟩
      rw [stay f hf]
      intro b hb hm hbt
      obtain ⟨g, hg, h1, h2⟩ := (h.core.cp b hb _ hbt t).1 (hcp hm)
      rw [h.core.uniq f hf g hg t ht h2]; exact h1
    · rintro ⟨f, hf, hk, ht, hc⟩
      refine ⟨⟨f, hf, ht⟩, hc, ?_⟩
      intro hm
      obtain ⟨b, hb, hbt⟩ := h.br hm
      exact (h.core.cp b hb _ hbt t).2 ⟨f, hf, (stay f hf).1 hk b hb hm hbt, ht⟩
  refine ⟨hfree, ?_, ?_, ?_, ?_, ?_, ?_, ?_⟩
  · rw [Bool.eq_false_iff]; intro hh
    have := ((hnow 0).1 hh).1
    rw [h.core.now0] at this; cases this
  · intro t; rw [own']
    constructor
    · rintro ⟨f, hf, hk, ht, hc⟩
      exact ⟨survive (combBranch s.idu) f, mem_after.2 ⟨f, hf, hk, rfl⟩, survive_tag.2 ⟨ht, hc⟩⟩
    · rintro ⟨f', hf', ht⟩
      obtain ⟨f, hf, hk, rfl⟩ := mem_after.1 hf'
      exact ⟨f, hf, hk, survive_tag.1 ht⟩
  · intro f' hf' g' hg' t h1 h2
    obtain ⟨f, hf, hk, rfl⟩ := mem_after.1 hf'
    obtain ⟨g, hg, hk', rfl⟩ := mem_after.1 hg'
    exact h.core.uniq f hf g hg t (survive_tag.1 h1).1 (survive_tag.1 h2).1
  · unfold afterBcast
    rw [List.pairwise_map]
    exact h.core.sorted.filter _
  · intro f' hf'
    obtain ⟨f, hf, hk, rfl⟩ := mem_after.1 hf'
    exact h.core.lt f hf
  · intro f' hf' t
    obtain ⟨f, hf, hk, rfl⟩ := mem_after.1 hf'
    have : (survive (combBranch s.idu) f).mask.getLsbD t = true ↔
        f.mask.getLsbD t = true ∧ s.idu.latch.clear.getLsbD t = false := by
      simp only [survive, bcast_clear, BitVec.getLsbD_and, BitVec.getLsbD_not, Bool.and_eq_true]
      constructor
      · rintro ⟨a, -, c⟩; exact ⟨a, by simpa using c⟩
      · rintro ⟨a, c⟩; exact ⟨a, by simpa using BitVec.lt_of_getLsbD a, by simpa using c⟩
    rw [this, h.core.mask f hf]
    constructor
    · rintro ⟨⟨g, hg, h1, h2⟩, hc⟩
      exact ⟨survive (combBranch s.idu) g,
        mem_after.2 ⟨g, hg, down f hf g hg (Nat.le_of_lt h1) hk, rfl⟩, h1, survive_tag.2 ⟨h2, hc⟩⟩
    · rintro ⟨g', hg', h1, h2⟩
      obtain ⟨g, hg, hk', rfl⟩ := mem_after.1 hg'
      exact ⟨⟨g, hg, h1, (survive_tag.1 h2).1⟩, (survive_tag.1 h2).2⟩
  · intro f' hf' t ht u
    obtain ⟨f, hf, hk, rfl⟩ := mem_after.1 hf'
    have ht' := survive_tag.1 ht
    obtain ⟨hp, hl⟩ := h.core.tag_pos hf ht'.1
    rw [hcp t hp hl, BitVec.getLsbD_and, BitVec.getLsbD_not, Bool.and_eq_true,
      h.core.cp f hf t ht'.1]
    constructor
    · rintro ⟨⟨g, hg, h1, h2⟩, hc⟩
      refine ⟨survive (combBranch s.idu) g,
        mem_after.2 ⟨g, hg, down f hf g hg h1 hk, rfl⟩, h1, survive_tag.2 ⟨h2, ?_⟩⟩
      rw [Bool.and_eq_true] at hc; simpa using hc.2
    · rintro ⟨g', hg', h1, h2⟩
      obtain ⟨g, hg, hk', rfl⟩ := mem_after.1 hg'
      have h2' := survive_tag.1 h2
      refine ⟨⟨g, hg, h1, h2'.1⟩, ?_⟩
      have := (h.core.tag_pos hg h2'.1).2
      rw [Bool.and_eq_true]
      exact ⟨by simpa using this, by simpa using h2'.2⟩

theorem inv_init : Inv (n := n) ⟨Idu.init n, [], 0⟩ := by
  refine ⟨⟨?_, ?_, ?_, ?_, ?_, ?_, ?_, ?_⟩, ?_, ?_⟩ <;>
    simp [Idu.init, Latch.none]

theorem core_latch {s : State n} {win next} (h : Core s win next) (l : Latch n) :
    Core { s with latch := l } win next :=
  ⟨h.free, h.now0, h.own, h.uniq, h.sorted, h.lt, h.mask, h.cp⟩

theorem fireLoop_latch (sls : List (Slot n)) : ∀ (tags : List Nat) (s : State n) (l : Latch n),
    { fireLoop sls tags s with latch := l } = fireLoop sls tags { s with latch := l } := by
  induction sls with
  | nil => intros; rfl
  | cons a sls ih =>
    intro tags s l
    simp only [fireLoop]
    split
    · exact ih _ _ _
    · exact ih _ _ _

theorem inv_step {s : Sys n} (maxBr : Nat) (i : Input n) (h : Inv s) (hv : Valid s i) :
    Inv (stepSys maxBr s i) := by
  have hc0 : s.idu.now.getLsbD 0 = false := h.core.now0
  by_cases hfl : i.flush = true
  · -- flush
    unfold stepSys combFire
    simp only [hfl, if_true]
    refine ⟨⟨?_, ?_, ?_, ?_, ?_, ?_, ?_, ?_⟩, ?_, ?_⟩ <;> simp [Latch.none]
  · have hfl' : i.flush = false := by simpa using hfl
    -- tag release without recovery
    have hnow1 := fun t => applyClear_now (s := s.idu) hc0 t
    have hfree1 : ∀ t, (applyClear s.idu).tagFree t = true ↔
        (0 < t ∧ t < n ∧ (applyClear s.idu).now.getLsbD t = false) := by
      intro t
      have e : ((applyClear s.idu).now.getLsbD t = false) ↔
          (s.idu.now.getLsbD t = false ∨ s.idu.latch.clear.getLsbD t = true) := by
        have := hnow1 t
        cases ha : (applyClear s.idu).now.getLsbD t <;> cases hb : s.idu.now.getLsbD t <;>
          cases hcc : s.idu.latch.clear.getLsbD t <;> simp [ha, hb, hcc] at this ⊢
      rw [e]
      unfold applyClear
      simp only
      split
      · rename_i hh; simp [hh]
      · rename_i hh
        rw [h.core.free]
        constructor
        · rintro ⟨a, b, c⟩; exact ⟨a, b, Or.inl c⟩
        · rintro ⟨a, b, c⟩
          refine ⟨a, b, ?_⟩
          rcases c with c | c
          · exact c
          · exact absurd ⟨a, b, c⟩ hh
    have hcp1 : ∀ t, 0 < t → t < n →
        (applyClear s.idu).cp t = s.idu.cp t &&& ~~~s.idu.latch.clear := by
      intro t a b; simp [applyClear, a, b]
    cases hm : s.idu.latch.mispred
    · -- normal cycle
      have c1 : Core (applyClear s.idu) (afterBcast s) s.next := by
        apply core_bcast h _ _ hfree1 hcp1
        intro t; rw [hnow1]; simp [hm]
      have c2 := core_drop c1 i.retire hv.retire
      have hrun : s.idu.now &&& ~~~s.idu.latch.clear = (applyClear s.idu).now := by
        apply BitVec.eq_of_getLsbD_eq
        intro t ht
        rw [Bool.eq_iff_iff, hnow1]
        simp [ht]
      have hnd : (allocTags s.idu maxBr).Nodup :=
        ((List.nodup_range (n := n)).filter _).sublist (List.take_sublist _ _)
      have htags : ∀ t ∈ allocTags s.idu maxBr,
          0 < t ∧ t < n ∧ (applyClear s.idu).now.getLsbD t = false := by
        intro t ht
        have := List.mem_of_mem_take ht
        rw [List.mem_filter] at this
        have hfr := (h.core.free t).1 this.2
        refine ⟨hfr.1, hfr.2.1, ?_⟩
        rw [Bool.eq_false_iff]; intro hh
        have := (hnow1 t).1 hh
        rw [hfr.2.2] at this; cases this.1
      cases hr : i.ready
      · unfold stepSys combFire fired
        simp only [hfl', hm, hr, Bool.false_eq_true, if_false, Bool.not_false, Bool.or_true,
          if_true, number, List.append_nil, List.length_nil, Nat.add_zero]
        refine ⟨core_latch c2 _, hv.resolve, hv.mispred⟩
      · unfold stepSys combFire fired combDecode
        simp only [hfl', hm, hr, Bool.false_eq_true, if_false, Bool.not_true, Bool.or_self,
          if_true]
        rw [hrun]
        refine ⟨core_latch (fire_core _ _ _ _ _ c2 hnd htags) _, ?_, hv.mispred⟩
        intro t h0 ht
        obtain ⟨f, hf, hft⟩ := hv.resolve t h0 ht
        exact ⟨f, by simp [hf], hft⟩
    · -- recovery
      obtain ⟨b, hb, hbt⟩ := h.br hm
      have c1 : Core ({ applyClear s.idu with
          now := (applyClear s.idu).now &&& ~~~(s.idu.now &&& ~~~(s.idu.cp s.idu.latch.brId))
          tagFree := fun t => if 0 < t ∧ t < n ∧
            (s.idu.now &&& ~~~(s.idu.cp s.idu.latch.brId)).getLsbD t then true
            else (applyClear s.idu).tagFree t } : State n) (afterBcast s) s.next := by
        have hnow2 : ∀ t, ((applyClear s.idu).now &&&
            ~~~(s.idu.now &&& ~~~(s.idu.cp s.idu.latch.brId))).getLsbD t = true ↔
            s.idu.now.getLsbD t = true ∧ s.idu.latch.clear.getLsbD t = false ∧
            (s.idu.cp s.idu.latch.brId).getLsbD t = true := by
          intro t
          rw [andnot_iff, hnow1, ← Bool.not_eq_true ((s.idu.now &&& ~~~s.idu.cp s.idu.latch.brId).getLsbD t), andnot_iff]
          constructor
          · rintro ⟨⟨a, c⟩, d⟩
            refine ⟨a, c, ?_⟩
            cases hq : (s.idu.cp s.idu.latch.brId).getLsbD t
            · exact absurd ⟨a, hq⟩ d
            · rfl
          · rintro ⟨a, c, d⟩
            refine ⟨⟨a, c⟩, ?_⟩
            rintro ⟨-, e⟩; rw [d] at e; cases e
        apply core_bcast h
        · intro t; simp only; rw [hnow2]; simp [hm]
        · intro t
          simp only
          split
          · rename_i hh
            simp only [true_iff]
            refine ⟨hh.1, hh.2.1, ?_⟩
            rw [Bool.eq_false_iff]; intro hx
            have h1 := (hnow2 t).1 hx
            have h2 := (andnot_iff _ _ _).1 hh.2.2
            rw [h1.2.2] at h2; cases h2.2
          · rename_i hh
            rw [hfree1]
            constructor
            · rintro ⟨a, c, d⟩
              refine ⟨a, c, ?_⟩
              rw [Bool.eq_false_iff]; intro hx
              have h1 := (hnow2 t).1 hx
              have := (hnow1 t).2 ⟨h1.1, h1.2.1⟩
              rw [d] at this; cases this
            · rintro ⟨a, c, d⟩
              refine ⟨a, c, ?_⟩
              rw [Bool.eq_false_iff]; intro hx
              have h1 := (hnow1 t).1 hx
              have h3 : (s.idu.cp s.idu.latch.brId).getLsbD t = true := by
                cases hq : (s.idu.cp s.idu.latch.brId).getLsbD t
                · exact absurd ⟨a, c, (andnot_iff _ _ _).2 ⟨h1.1, hq⟩⟩ hh
                · rfl
              have := (hnow2 t).2 ⟨h1.1, h1.2, h3⟩
              rw [d] at this; cases this
        · exact hcp1
      have c2 := core_drop c1 i.retire hv.retire
      unfold stepSys combFire fired
      simp only [hfl', hm, Bool.false_eq_true, if_false, Bool.or_true, Bool.true_or,
        if_true, number, List.append_nil, List.length_nil, Nat.add_zero]
      exact ⟨core_latch c2 _, hv.resolve, hv.mispred⟩

theorem inv_reach {maxBr : Nat} {s : Sys n} (h : Reach n maxBr s) : Inv s := by
  induction h with
  | init => exact inv_init
  | step i _ hv ih => exact inv_step maxBr i ih hv

end Verif.IduProofs

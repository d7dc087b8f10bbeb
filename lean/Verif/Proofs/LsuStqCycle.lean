import Verif.Proofs.LsuStqStep2
import Verif.Proofs.LsuListLive

/-
Store side of the load/store unit: dispatch, recovery, retirement, and a whole cycle.
-/
namespace Verif.LsuStq

open Verif.Ring
open Verif.LsuList (Q Tlb foldl_inv upd_apply countP_flip)

/-! ### Dispatch -/

def fresh : E := { st := .allocated, dv := false, pf := false, sc := false }

theorem alloc1_ok {c : Cfg} {A B : Nat} {s : SS} (h : Core c A B s) (hk : Clean s) (hc : s.count < c.n) :
    Core c (A + 1) (B + 1) { s.put (s.at c s.count) fresh with count := s.count + 1 } ∧
      Clean { s.put (s.at c s.count) fresh with count := s.count + 1 } := by
  have hx : s.at c s.count < c.n := Nat.mod_lt _ (by omega)
  have hox : off c.n s.head (s.at c s.count) = s.count := off_at h.hd hc
  generalize s.at c s.count = x at *
  have hnl : s.live c x = false := by
    cases e : s.live c x with
    | false => rfl
    | true => have := (live_iff.mp e).2; omega
  have hnw : ¬ s.wm.Mem x := fun w => by rw [h.wmL x w] at hnl; simp at hnl
  have hnm : ¬ s.md.Mem x := fun w => by rw [h.mdL x w] at hnl; simp at hnl
  have ent1 : ∀ j, ({ s.put x fresh with count := s.count + 1 } : SS).ent j = if j = x then fresh else s.ent j := fun j => rfl
  have lv : ∀ j, ({ s.put x fresh with count := s.count + 1 } : SS).live c j = true ↔ s.live c j = true ∨ j = x := by
    intro j
    rw [live_iff, live_iff]
    show j < c.n ∧ off c.n s.head j < s.count + 1 ↔ _
    constructor
    · rintro ⟨a, b⟩
      by_cases e : off c.n s.head j = s.count
      · right; rw [← at_off h.hd a, e, ← hox, at_off h.hd hx]
      · exact .inl ⟨a, by omega⟩
    · rintro (⟨a, b⟩ | rfl)
      · exact ⟨a, by omega⟩
      · exact ⟨hx, by omega⟩
  have lvx : ({ s.put x fresh with count := s.count + 1 } : SS).live c x = true := (lv x).mpr (.inr rfl)
  have lvo : ∀ j, j ≠ x → ({ s.put x fresh with count := s.count + 1 } : SS).live c j = s.live c j := by
    intro j e
    rw [Bool.eq_iff_iff, lv]
    simp [e]
  have cn : ∀ p : SSt → Bool, p .allocated = true → cnt c { s.put x fresh with count := s.count + 1 } p = cnt c s p + 1 := by
    intro p hp
    have := countP_flip (p := fun y => ({ s.put x fresh with count := s.count + 1 } : SS).live c y &&
        p (({ s.put x fresh with count := s.count + 1 } : SS).ent y).st) (p' := fun y => s.live c y && p (s.ent y).st) (l := x)
      (by rw [lvx, ent1, if_pos rfl]; simpa [fresh] using hp) (by simp [hnl]) (fun j e => by rw [lvo j e, ent1, if_neg e]) c.n
    rw [if_pos hx] at this
    exact this.symm
  have ha := h.cA
  have hb := h.cB
  refine ⟨⟨h.wmW, h.mdW, h.hd, hc, by have := h.cm; show s.com ≤ s.count + 1; omega, fun j hj => (lv j).mpr (.inl (h.wmL j hj)),
    fun j hj => (lv j).mpr (.inl (h.mdL j hj)), ?_, ?_, ?_, ?_⟩, ?_⟩
  · intro j hj
    rw [ent1]
    by_cases e : j = x
    · subst e
      rw [if_pos rfl]
      exact ⟨fun w => absurd w hnw, by simp [fresh], fun w => absurd w hnm, by simp [fresh], by simp [fresh], by simp [fresh], by simp [fresh],
        by simp [fresh], by simp [fresh]⟩
    · rw [if_neg e]; exact h.ok j (((lv j).mp hj).resolve_right e)
  · intro j hj
    rw [ent1]
    show _ ↔ off c.n s.head j < s.com
    by_cases e : j = x
    · subst e
      rw [if_pos rfl, hox]
      have := h.cm
      exact ⟨fun e => by simp [fresh] at e, fun e => by omega⟩
    · rw [if_neg e]; exact h.go j (((lv j).mp hj).resolve_right e)
  · rw [cn _ rfl]; show _ + s.wm.count ≤ _; omega
  · rw [cn _ rfl]; show s.md.count + _ ≤ _; omega
  · intro j hj
    have : j ≠ x := fun e => hnw (e ▸ hj)
    rw [ent1, if_neg this]
    exact hk j hj

theorem allocN_ok {c : Cfg} : ∀ (k : Nat) {A B : Nat} {s : SS}, Core c A B s → Clean s → s.count + k ≤ c.n →
    ∃ s', allocN c k s = some s' ∧ Core c (A + k) (B + k) s' ∧ Clean s' ∧ s'.head = s.head ∧ s'.count = s.count + k ∧ s'.com = s.com ∧
      (∀ x, s.live c x = true → s'.ent x = s.ent x) ∧
      (∀ x, x < c.n → s.count ≤ off c.n s.head x → off c.n s.head x < s.count + k → s'.ent x = fresh) ∧ s'.md = s.md
  | 0, A, B, s, h, hk, _ => ⟨s, rfl, h, hk, rfl, rfl, rfl, fun _ _ => rfl, fun x hx a b => by omega, rfl⟩
  | k + 1, A, B, s, h, hk, hc => by
    rw [allocN, if_neg (by omega)]
    obtain ⟨a1, a2⟩ := alloc1_ok h hk (by omega)
    have hx : s.at c s.count < c.n := Nat.mod_lt _ (by omega)
    have hox : off c.n s.head (s.at c s.count) = s.count := off_at h.hd (by omega)
    obtain ⟨s', b1, b2, b3, b4, b5, b6, b7, b8, b9⟩ := allocN_ok k a1 a2 (by show s.count + 1 + k ≤ c.n; omega)
    have ent1 : ∀ j, ({ s.put (s.at c s.count) fresh with count := s.count + 1 } : SS).ent j = if j = s.at c s.count then fresh else s.ent j := fun j => rfl
    have b8' : ∀ x, x < c.n → s.count + 1 ≤ off c.n s.head x → off c.n s.head x < s.count + 1 + k → s'.ent x = fresh := b8
    have lv : ∀ x, x < c.n → off c.n s.head x < s.count + 1 →
        ({ s.put (s.at c s.count) fresh with count := s.count + 1 } : SS).live c x = true := fun x a b => live_iff.mpr ⟨a, b⟩
    refine ⟨s', b1, by rw [show A + (k + 1) = A + 1 + k by omega, show B + (k + 1) = B + 1 + k by omega]; exact b2, b3, b4,
      by rw [b5]; show s.count + 1 + k = _; omega, b6, ?_, ?_, b9⟩
    · intro x hl
      obtain ⟨l1, l2⟩ := live_iff.mp hl
      rw [b7 x (lv x l1 (by omega)), ent1, if_neg]
      rintro rfl
      omega
    · intro x hx h1 h2
      by_cases e : off c.n s.head x = s.count
      · have e' := at_off h.hd hx
        rw [e] at e'
        rw [b7 x (lv x hx (by omega)), ent1, if_pos (show x = s.at c s.count from e'.symm)]
      · exact b8' x hx (by omega) (by omega)

/-! ### Recovery and retirement -/

theorem Core.shrink {c : Cfg} {A B : Nat} {s s' : SS} (h : Core c A B s) (he : s'.ent = s.ent) (hd : s'.head < c.n) (cl : s'.count ≤ c.n)
    (cm : s'.com ≤ s'.count) (lv : ∀ x, s'.live c x = true → s.live c x = true) (ww : s'.wm.WF c.n) (mw : s'.md.WF c.n)
    (wm : ∀ x, s'.wm.Mem x ↔ s.wm.Mem x ∧ s'.live c x = true) (md : ∀ x, s'.md.Mem x ↔ s.md.Mem x ∧ s'.live c x = true)
    (go : ∀ x, s'.live c x = true → (off c.n s'.head x < s'.com ↔ off c.n s.head x < s.com))
    (wc : s'.wm.count ≤ s.wm.count) (mc : s'.md.count ≤ s.md.count) : Core c A B s' := by
  have cn : ∀ p, cnt c s' p ≤ cnt c s p := fun p => countP_mono' (fun x hx => by
    rw [Bool.and_eq_true] at hx ⊢
    exact ⟨lv x hx.1, by rw [← he]; exact hx.2⟩) _
  have ha := h.cA
  have hb := h.cB
  have c1 := cn isAlloc
  have c2 := cn pend
  refine ⟨ww, mw, hd, cl, cm, fun x hx => ((wm x).mp hx).2, fun x hx => ((md x).mp hx).2, ?_, ?_, by omega, by omega⟩
  · intro x hx
    have t := h.ok x (lv x hx)
    rw [he]
    exact ⟨fun w => t.w1 ((wm x).mp w).1, fun w => (wm x).mpr ⟨t.w2 w, hx⟩, fun w => t.m1 ((md x).mp w).1,
      fun w => (md x).mpr ⟨t.m2 w, hx⟩, t.d1, t.d2, t.d3, t.p1, t.p2⟩
  · intro x hx
    rw [he, go x hx]
    exact h.go x (lv x hx)

/-- Stores in the lists are not committed. -/
theorem Core.mem_com {c : Cfg} {A B : Nat} {s : SS} (h : Core c A B s) {x : Nat} (hx : s.wm.Mem x ∨ s.md.Mem x) :
    s.live c x = true ∧ s.com ≤ off c.n s.head x := by
  have hl : s.live c x = true := by rcases hx with hx | hx; exact h.wmL x hx; exact h.mdL x hx
  refine ⟨hl, ?_⟩
  have ok := h.ok x hl
  have g := h.go x hl
  have : (s.ent x).st ≠ .gone := by
    intro e
    rcases hx with hx | hx
    · have := ok.w1 hx; rw [e] at this; simp at this
    · have := ok.m1 hx; rw [e] at this; simp at this
  by_cases e : off c.n s.head x < s.com
  · exact absurd (g.mpr e) this
  · omega

theorem flush_ok {c : Cfg} {A B : Nat} {s : SS} (h : Core c A B s) : Core c A B (flush s) ∧ Clean (flush s) := by
  have hcm := h.cm
  have hcl := h.cl
  have lv : ∀ x, (flush s).live c x = true ↔ x < c.n ∧ off c.n s.head x < min s.com s.count := fun x => live_iff
  refine ⟨h.shrink rfl h.hd (by show min _ _ ≤ _; omega) (Nat.le_refl _) (fun x hx => ?_) (LsuList.Q.clear_wf h.wmW) (LsuList.Q.clear_wf h.mdW)
    (fun x => ?_) (fun x => ?_) (fun x hx => ?_) (Nat.zero_le _) (Nat.zero_le _), fun x hx => absurd hx (LsuList.Q.clear_mem _ x)⟩
  · have := (lv x).mp hx; exact live_iff.mpr ⟨this.1, by omega⟩
  · refine ⟨fun w => absurd w (LsuList.Q.clear_mem _ x), fun ⟨a, b⟩ => ?_⟩
    have := (h.mem_com (.inl a)).2; have := ((lv x).mp b).2; omega
  · refine ⟨fun w => absurd w (LsuList.Q.clear_mem _ x), fun ⟨a, b⟩ => ?_⟩
    have := (h.mem_com (.inr a)).2; have := ((lv x).mp b).2; omega
  · show off c.n s.head x < min s.com s.count ↔ _; omega

theorem prune_eq (c : Cfg) (q : Q) (alive : Nat → Bool) :
    prune c q alive = q.prune c.n fun x => if alive x then .allocated else .empty := by
  unfold prune Q.prune
  congr 2
  funext f i
  cases f ((q.head + i) % c.n) with
  | none => rfl
  | some x => cases alive x <;> simp

theorem prune_wf {c : Cfg} {q : Q} (h : q.WF c.n) (alive : Nat → Bool) : (prune c q alive).WF c.n := by
  rw [prune_eq]; exact LsuList.Q.prune_wf h _

theorem prune_mem {c : Cfg} {q : Q} (h : q.WF c.n) (alive : Nat → Bool) (x : Nat) : (prune c q alive).Mem x ↔ q.Mem x ∧ alive x = true := by
  rw [prune_eq, LsuList.Q.prune_mem h]
  cases alive x <;> simp

theorem mispred_ok {c : Cfg} {A B : Nat} {s : SS} (h : Core c A B s) (hk : Clean s) {k : Nat} (hc : s.com ≤ k) :
    Core c A B (mispred c s k) ∧ Clean (mispred c s k) ∧ (mispred c s k).com = s.com := by
  have hcm := h.cm
  have hcl := h.cl
  have lv : ∀ x, (mispred c s k).live c x = true ↔ x < c.n ∧ off c.n s.head x < min k s.count := fun x => live_iff
  have lv' : ∀ x, ({ s with count := min k s.count } : SS).live c x = (mispred c s k).live c x := fun x => rfl
  have ecom : (mispred c s k).com = s.com := by show min s.com (min k s.count) = _; omega
  have em : ∀ x, (mispred c s k).wm.Mem x ↔ s.wm.Mem x ∧ (mispred c s k).live c x = true := fun x => prune_mem h.wmW _ x
  refine ⟨h.shrink rfl h.hd (by show min _ _ ≤ _; omega) (by rw [ecom]; show _ ≤ min _ _; omega) (fun x hx => ?_) (prune_wf h.wmW _) (prune_wf h.mdW _)
    em (fun x => prune_mem h.mdW _ x) (fun x hx => ?_) (Nat.le_refl _) (Nat.le_refl _), ?_, ecom⟩
  · have := (lv x).mp hx; exact live_iff.mpr ⟨this.1, by omega⟩
  · rw [ecom]; exact Iff.rfl
  · intro x hx; exact hk x ((em x).mp hx).1

theorem retire_ok {c : Cfg} {A B : Nat} {s : SS} (h : Core c A B s) (hk : Clean s) (r : Nat) :
    Core c A B (retire c s r) ∧ Clean (retire c s r) ∧
      ∀ x, (retire c s r).live c x = true ↔ s.live c x = true ∧ min r s.com ≤ off c.n s.head x := by
  have hcm := h.cm
  have hcl := h.cl
  have hhd := h.hd
  have hm : min r (min s.com s.count) = min r s.com := by omega
  have lv : ∀ x, (retire c s r).live c x = true ↔ s.live c x = true ∧ min r s.com ≤ off c.n s.head x := by
    intro x
    rw [live_iff, live_iff]
    show x < c.n ∧ off c.n ((s.head + min r (min s.com s.count)) % c.n) x < s.count - min r (min s.com s.count) ↔ _
    rw [hm]
    by_cases hx : x < c.n
    · obtain ⟨o1, o2⟩ := off_move (k := min r s.com) hhd (by omega) hx
      by_cases e : min r s.com ≤ off c.n s.head x
      · rw [o1 e]; omega
      · rw [o2 (by omega)]; omega
    · simp [hx]
  refine ⟨h.shrink rfl (Nat.mod_lt _ (by omega)) (by show s.count - _ ≤ _; omega) (by show s.com - _ ≤ s.count - _; omega) (fun x hx => ((lv x).mp hx).1)
    h.wmW h.mdW (fun x => ?_) (fun x => ?_) (fun x hx => ?_) (Nat.le_refl _) (Nat.le_refl _), hk, lv⟩
  · refine ⟨fun w => ⟨w, ?_⟩, fun w => w.1⟩
    have := h.mem_com (.inl w); exact (lv x).mpr ⟨this.1, by omega⟩
  · refine ⟨fun w => ⟨w, ?_⟩, fun w => w.1⟩
    have := h.mem_com (.inr w); exact (lv x).mpr ⟨this.1, by omega⟩
  · obtain ⟨l1, l2⟩ := (lv x).mp hx
    have := (off_move (k := min r s.com) hhd (by omega) (live_iff.mp l1).1).1 l2
    show off c.n ((s.head + min r (min s.com s.count)) % c.n) x < s.com - min r (min s.com s.count) ↔ _
    rw [hm, this]
    omega

/-! ### A cycle -/

structure Inv (c : Cfg) (s : SS) : Prop where
  core : Core c c.n c.n s
  clean : Clean s

theorem inv_init {c : Cfg} (hn : 0 < c.n) : Inv c SS.init :=
  ⟨core_init hn, fun x h => absurd h (LsuList.Q.init_mem x)⟩

theorem mem_loc {c : Cfg} {A B : Nat} {s : SS} (h : Core c A B s) : s.nAlloc c + s.md.count ≤ B := by
  have h1 := h.cB
  have h2 : cnt c s isAlloc ≤ cnt c s pend := countP_mono' (fun x hx => by
    rw [Bool.and_eq_true] at hx ⊢
    refine ⟨hx.1, ?_⟩
    have := hx.2
    cases e : (s.ent x).st <;> rw [e] at this <;> simp [isAlloc] at this
    rfl) _
  rw [nAlloc_eq h.hd h.cl]
  omega

/-- What dispatch is offered fits. -/
theorem free_ok {c : Cfg} {s : SS} (hn : c.n < 2 ^ 32) (h : Inv c s) :
    s.free c = min (c.n - s.nAlloc c - max s.wm.count s.md.count) (c.n - s.count) := by
  have h1 := mem_loc h.core
  have h2 := h.core.cA
  rw [← nAlloc_eq h.core.hd h.core.cl] at h2
  unfold SS.free
  congr 1
  generalize hm : max s.wm.count s.md.count = m
  have : m = s.wm.count ∨ m = s.md.count := by omega
  rw [show 2 ^ 32 + c.n - s.nAlloc c - m = (c.n - s.nAlloc c - m) + 2 ^ 32 by omega, Nat.add_mod_right, Nat.mod_eq_of_lt (by omega)]

/-- The widths under which the lists are large enough. -/
structure CfgOk (c : Cfg) (W : Nat) : Prop where
  pos : 0 < c.n
  small : c.n < 2 ^ 32
  sta : W ≤ c.sta
  ldu : W ≤ c.ldu
  win : W ≤ c.win

/-- A cycle for the stores that were in the queue. -/
structure CycOk (c : Cfg) (s : SS) (x : In) (s' : SS) (out : List Nat) : Prop where
  inv : Inv c s'
  nodup : out.Nodup
  outs : ∀ j ∈ out, s.live c j = true ∧ (((s.ent j).st = .ready ∧ (s.ent j).dv = true) ∨ ((s.ent j).st = .pageFault ∧ (s.ent j).pf = true))
  repd : ∀ j, s.live c j = true → (rep (s'.ent j).st = true ↔ rep (s.ent j).st = true ∨ j ∈ out)
  al : ∀ j, s.live c j = true → ((s'.ent j).st = .allocated ↔ (s.ent j).st = .allocated ∧ j ∉ x.addr.map (·.1))
  dv : ∀ j, s.live c j = true → ((s'.ent j).dv = true ↔ (s.ent j).dv = true ∨ j ∈ x.data)
  stay : ∀ j, s.live c j = true → (s'.live c j = true ↔
    min x.retire (s.com + x.commits) ≤ off c.n s.head j ∧ (x.flush = true → off c.n s.head j < s.com + x.commits) ∧
    ∀ k, x.keep = some k → off c.n s.head j < k)
  new : ∀ j, s.live c j = false → s'.live c j = true → (s'.ent j) = fresh ∧ s.count ≤ off c.n s.head j ∧ off c.n s.head j < s.count + x.alloc
  md : ∀ j, s.md.Mem j → j ∉ out → (s'.ent j).st = (s.ent j).st
  ports : (out.filter fun j => (s.ent j).sc).length ≤ c.ldu ∧ (out.filter fun j => !(s.ent j).sc).length ≤ c.sta
  pos : 0 < c.sta → 0 < c.ldu → 0 < c.win → ∀ d j, s.md.slot ((s.md.head + d) % c.n) = some j → j ∉ out → s'.live c j = true →
    ∃ d', d' < d ∧ s'.md.slot ((s'.md.head + d') % c.n) = some j

theorem recover_ok {c : Cfg} {A B : Nat} {s : SS} (h : Core c A B s) (hk : Clean s) {x : In} (hc : ∀ k, x.keep = some k → s.com ≤ k) :
    Core c A B (recover c s x) ∧ Clean (recover c s x) ∧ (recover c s x).ent = s.ent ∧ (recover c s x).head = s.head ∧ (recover c s x).com = s.com ∧
      (∀ j, (recover c s x).live c j = true ↔ s.live c j = true ∧ (x.flush = true → off c.n s.head j < s.com) ∧
        ∀ k, x.keep = some k → off c.n s.head j < k) ∧
      ∀ p j, s.md.slot p = some j → (recover c s x).live c j = true → (recover c s x).md.head = s.md.head ∧ (recover c s x).md.slot p = some j := by
  have hcm := h.cm
  have f1 : Core c A B (if x.flush then flush s else s) ∧ Clean (if x.flush then flush s else s) ∧ (if x.flush then flush s else s).ent = s.ent ∧
      (if x.flush then flush s else s).head = s.head ∧ (if x.flush then flush s else s).com = s.com ∧
      (if x.flush then flush s else s).count = (if x.flush then s.com else s.count) ∧
      ∀ p j, s.md.slot p = some j → (if x.flush then flush s else s).live c j = true →
        (if x.flush then flush s else s).md.head = s.md.head ∧ (if x.flush then flush s else s).md.slot p = some j := by
    cases hf : x.flush
    · exact ⟨h, hk, rfl, rfl, rfl, rfl, fun p j hp _ => ⟨rfl, hp⟩⟩
    · exact ⟨(flush_ok h).1, (flush_ok h).2, rfl, rfl, by show min _ _ = _; omega, by show min s.com s.count = s.com; omega, fun p j hp hl => by
        have h1 := (h.mem_com (.inr ⟨p, hp⟩)).2
        have h2 : off c.n s.head j < min s.com s.count := (live_iff.mp hl).2
        omega⟩
  unfold recover
  dsimp only
  generalize (if x.flush then flush s else s) = s1 at *
  obtain ⟨g1, g2, g3, g4, g5, g6, g7⟩ := f1
  have lv1 : ∀ j, s1.live c j = true ↔ s.live c j = true ∧ (x.flush = true → off c.n s.head j < s.com) := by
    intro j
    rw [live_iff, live_iff, g4, g6]
    cases x.flush <;> simp <;> omega
  cases hkp : x.keep with
  | none =>
    refine ⟨g1, g2, g3, g4, g5, fun j => ?_, g7⟩
    rw [lv1]; simp
  | some k =>
    obtain ⟨m1, m2, m3⟩ := mispred_ok g1 g2 (k := k) (by rw [g5]; exact hc k hkp)
    have sl : ∀ p j, s1.md.slot p = some j → (mispred c s1 k).live c j = true → (mispred c s1 k).md.slot p = some j := by
      intro p j hp hl
      show (prune c s1.md _).slot p = some j
      rw [prune_eq, LsuList.Q.prune_slot g1.mdW]
      have hl : ({ s1 with count := min k s1.count } : SS).live c j = true := hl
      exact ⟨hp, by rw [hl]; simp⟩
    refine ⟨m1, m2, g3, g4, m3.trans g5, fun j => ?_, fun p j hp hl => ?_⟩
    rotate_left
    · have hl1 : s1.live c j = true := by
        obtain ⟨a, b⟩ := live_iff.mp hl
        have b : off c.n s1.head j < min k s1.count := b
        exact live_iff.mpr ⟨a, by omega⟩
      obtain ⟨e1, e2⟩ := g7 p j hp hl1
      exact ⟨e1, sl p j e2 hl⟩
    have : (mispred c s1 k).live c j = true ↔ s1.live c j = true ∧ off c.n s.head j < k := by
      rw [live_iff, live_iff, ← g4]
      show j < c.n ∧ off c.n s1.head j < min k s1.count ↔ _
      omega
    show (mispred c s1 k).live c j = true ↔ _
    rw [this, lv1]
    simp [and_assoc]

theorem cycle_ok {c : Cfg} {W : Nat} (hc : CfgOk c W) {y : Sys} {x : In} (h : Inv c y.s) (hv : Valid c W y x) :
    ∃ y', y.cycle c x = some y' ∧ CycOk c y.s x y'.s y'.out := by
  obtain ⟨s, o⟩ := y
  dsimp only at h
  have hfree := free_ok hc.small h
  have hal := hv.alloc
  rw [hfree] at hal
  have hal2 : s.count + x.alloc ≤ c.n := by have := h.core.cl; omega
  -- commit; from here on `A` is what is used of the first list
  have core0 : Core c (s.nAlloc c + s.wm.count) c.n s := { h.core with cA := by rw [nAlloc_eq h.core.hd h.core.cl]; exact Nat.le_refl _ }
  have hA : s.nAlloc c + s.wm.count ≤ c.n := by rw [nAlloc_eq h.core.hd h.core.cl]; exact h.core.cA
  obtain ⟨s0, e0, k1, k2, k3, k4, k5, k6, k7, k8⟩ := commitN_ok x.commits core0 h.clean hv.commits
  obtain ⟨r1, r2⟩ := report_core (W := W) k1 k2 hc.sta hc.ldu hc.win
  obtain ⟨a, ra, re⟩ := report_ok k1 k2
  have rs : (report c s0).1.ent = a.s.ent ∧ (report c s0).1.head = s.head ∧ (report c s0).1.count = s.count ∧
      (report c s0).1.com = s.com + x.commits ∧ (report c s0).2 = a.out ∧ (report c s0).1.md = a.s.md.pop c.n (min a.s.md.count c.win) := by
    rw [re]; exact ⟨rfl, ra.hd.trans k3, ra.cnt.trans k4, ra.com.trans k5, rfl, rfl⟩
  obtain ⟨q1, q2, q3, q4, q5, q6⟩ := rs
  have hB : max (c.n - W) s0.count ≤ c.n := by have := h.core.cl; omega
  have lvr : ∀ j, (report c s0).1.live c j = s.live c j := live_congr q2 q3
  obtain ⟨d1, d2, d3, d4, d5, d6⟩ := dataAll_ok hB x.data r1 r2 (fun j hj => by rw [lvr]; exact (hv.data.2 j hj).1)
  have fc : front c s x = some (tlbIn c (x.addr.foldl (addrIn c) (x.data.foldl (dataIn c) (report c s0).1))
      (tlbOut c (x.addr.foldl (addrIn c) (x.data.foldl (dataIn c) (report c s0).1))) x.tlb, a.out) := by
    unfold front; rw [e0, ← q5]; rfl
  generalize x.data.foldl (dataIn c) (report c s0).1 = s1 at *
  generalize (report c s0).1 = sr at *
  -- one store through commit and report
  have stg : ∀ j, s.live c j = true → (rep (sr.ent j).st = true ↔ rep (s.ent j).st = true ∨ j ∈ a.out) ∧
      ((sr.ent j).st = .allocated ↔ (s.ent j).st = .allocated) ∧ (sr.ent j).dv = (s.ent j).dv := by
    intro j hj
    rw [q1]
    rcases k8 j with ⟨b1, -⟩ | ⟨-, -, -, b4, b5⟩
    · rcases ra.ent j with ⟨w1, -, w3, w4⟩ | ⟨w1, w2⟩
      · rw [w4]
        rw [b1] at w3 ⊢
        rcases w3 with e | e <;> simp [rep, e, w1]
      · rw [w2, b1]; simp [w1]
    · rcases ra.ent j with ⟨w1, -, w3, w4⟩ | ⟨w1, w2⟩
      · rw [b5] at w3; simp at w3
      · rw [w2, b5]; simp [rep, b4, w1]
  have frn : ∀ b ∈ x.addr, s1.live c b.1 = true ∧ (s1.ent b.1).st = .allocated := by
    intro b hb
    obtain ⟨v1, v2⟩ := hv.addr.2 b hb
    exact ⟨by rw [d3.live, lvr]; exact v1, (d6 _).mpr ((stg _ v1).2.1.mpr v2)⟩
  obtain ⟨f1, f2, f3, f4, f5⟩ := addrAll_ok hA x.addr d1 d2 hv.addr.1 frn
  generalize x.addr.foldl (addrIn c) s1 = s2 at *
  obtain ⟨t1, t2, t3⟩ := tlbIn_ok hB f1 f2 x.tlb
  generalize tlbIn c s2 (tlbOut c s2) x.tlb = s3 at *
  have fr3 : Fr sr s3 := d3.trans (f3.trans t3.toFr)
  have c3 : s3.count = s.count := fr3.cnt.trans q3
  have h3 : s3.head = s.head := fr3.hd.trans q2
  obtain ⟨s4, e4, g1, g2, g3, g4, g5, g6, g7, g8⟩ := allocN_ok x.alloc t1 t2 (by rw [c3]; exact hal2)
  have lv3 : ∀ j, s3.live c j = s.live c j := live_congr h3 c3
  have com4 : s4.com = s.com + x.commits := g5.trans (fr3.com.trans q4)
  have core4 : Core c c.n c.n s4 := { g1 with
    cA := by
      have := g1.cA
      have : x.alloc ≤ c.n - s.nAlloc c - s.wm.count := by omega
      omega
    cB := by
      have := g1.cB
      have : max (c.n - W) s0.count + x.alloc ≤ c.n := by
        rw [k4]
        rcases Nat.le_total (c.n - W) s.count with e | e
        · rw [Nat.max_eq_right e]; exact hal2
        · rw [Nat.max_eq_left e]; omega
      omega }
  obtain ⟨u1, u2, u3, u4, u5, u6, u7⟩ := recover_ok core4 g2 (x := x) (fun k hk => by rw [com4]; exact hv.keep k hk)
  obtain ⟨z1, z2, z3⟩ := retire_ok u1 u2 x.retire
  refine ⟨⟨retire c (recover c s4 x) x.retire, a.out⟩, by unfold Sys.cycle; rw [fc]; dsimp only; rw [e4]; rfl, ?_⟩
  have head4 : s4.head = s.head := g3.trans h3
  -- a store through the whole cycle
  have entf : ∀ j, s.live c j = true → (retire c (recover c s4 x) x.retire).ent j = s3.ent j := by
    intro j hj
    show (recover c s4 x).ent j = _
    rw [u3]
    exact g6 j (by rw [lv3]; exact hj)
  have lvf : ∀ j, (retire c (recover c s4 x) x.retire).live c j = true ↔ s4.live c j = true ∧
      min x.retire (s.com + x.commits) ≤ off c.n s.head j ∧ (x.flush = true → off c.n s.head j < s.com + x.commits) ∧
      ∀ k, x.keep = some k → off c.n s.head j < k := by
    intro j
    rw [z3, u6, u5, u4, com4, head4]
    constructor
    · rintro ⟨⟨a, b, d⟩, e⟩; exact ⟨a, e, b, d⟩
    · rintro ⟨a, e, b, d⟩; exact ⟨⟨a, b, d⟩, e⟩
  have lv4 : ∀ j, s.live c j = true → s4.live c j = true := by
    intro j hj
    obtain ⟨l1, l2⟩ := live_iff.mp hj
    exact live_iff.mpr ⟨l1, by rw [head4, g4, c3]; omega⟩
  refine ⟨⟨z1, z2⟩, ra.nodup, ?_, ?_, ?_, ?_, ?_, ?_, ?_, ?_, ?_⟩
  · intro j hj
    rcases ra.ent j with ⟨w1, w2, w3, -⟩ | ⟨w1, -⟩
    · rw [live_congr k3 k4] at w2
      refine ⟨w2, ?_⟩
      rcases k8 j with ⟨b1, -⟩ | ⟨-, -, -, b4, b5⟩
      · rw [b1] at w3
        have ok := h.core.ok j w2
        rcases w3 with e | e
        · exact .inl ⟨e, ok.d2 e⟩
        · exact .inr ⟨e, ok.p1 e⟩
      · rw [b5] at w3; simp at w3
    · exact absurd hj w1
  · intro j hj
    rw [entf j hj, fr3.rep]
    exact (stg j hj).1
  · intro j hj
    rw [entf j hj, t3.al]
    by_cases e : j ∈ x.addr.map (·.1)
    · obtain ⟨b, hb, rfl⟩ := List.mem_map.mp e
      rw [f5 b hb]
      simp [e]
    · rw [f4 j e, d6, (stg j hj).2.1]; simp [e]
  · intro j hj
    have e2 : (s2.ent j).dv = (s1.ent j).dv := by
      by_cases e : j ∈ x.addr.map (·.1)
      · obtain ⟨b, hb, rfl⟩ := List.mem_map.mp e
        rw [f5 b hb]
      · rw [f4 j e]
    rw [entf j hj, t3.dv', e2, ← (stg j hj).2.2]
    by_cases e : j ∈ x.data
    · simp [d5 j e, e]
    · rw [d4 j e]; simp [e]
  · intro j hj
    rw [lvf]; simp [lv4 j hj]
  · intro j hj hj'
    obtain ⟨m1, -⟩ := (lvf j).mp hj'
    obtain ⟨l1, l2⟩ := live_iff.mp m1
    rw [head4, g4, c3] at l2
    have l3 : s.count ≤ off c.n s.head j := by
      by_cases e : off c.n s.head j < s.count
      · rw [live_iff.mpr ⟨l1, e⟩] at hj; simp at hj
      · omega
    refine ⟨?_, l3, l2⟩
    show (recover c s4 x).ent j = _
    rw [u3]
    exact g7 j l1 (by rw [c3, h3]; exact l3) (by rw [c3, h3]; exact l2)
  · intro j hj hjo
    have hl := h.core.mdL j hj
    have ok := h.core.ok j hl
    have hst := ok.m1 hj
    rw [entf j hl]
    have es : sr.ent j = s.ent j := by
      rw [q1]
      rcases k8 j with ⟨b1, -⟩ | ⟨-, -, -, b4, b5⟩
      · rcases ra.ent j with ⟨w1, -⟩ | ⟨-, w2⟩
        · exact absurd w1 hjo
        · exact w2.trans b1
      · rw [b4] at hst; simp at hst
    rw [← es] at hst ⊢
    exact fr3.rdy j hst
  · have e : ∀ j, (s0.ent j).sc = (s.ent j).sc := by
      intro j
      rcases k8 j with ⟨b1, -⟩ | ⟨-, -, -, -, b5⟩
      · rw [b1]
      · rw [b5]
    have h1 := ra.sc
    have h2 := ra.nsc
    obtain ⟨h3, h4⟩ := ra.lim
    rw [show (fun j => (s.ent j).sc) = fun j => (s0.ent j).sc from funext fun j => (e j).symm,
      show (fun j => !(s.ent j).sc) = fun j => !(s0.ent j).sc from funext fun j => by rw [e j]]
    exact ⟨by rw [h1]; exact h4, by rw [h2]; exact h3⟩
  · intro p1 p2 p3 d j hj hjo hl
    have hm : s.md.Mem j := ⟨_, hj⟩
    have hl0 := h.core.mdL j hm
    have ok := h.core.ok j hl0
    have hst := ok.m1 hm
    have ej : a.s.ent j = s.ent j := by
      rcases k8 j with ⟨b1, -⟩ | ⟨-, -, -, b4, b5⟩
      · rcases ra.ent j with ⟨w1, -⟩ | ⟨-, w2⟩
        · exact absurd w1 hjo
        · exact w2.trans b1
      · rw [b4] at hst; simp at hst
    have la : a.s.live c j = true := by rw [live_congr (ra.hd.trans k3) (ra.cnt.trans k4)]; exact hl0
    obtain ⟨p', hp'⟩ := (ra.core.ok j la).m2 (by rw [ej]; exact hst)
    have hp0 := ra.ms _ _ hp'
    rw [k7] at hp0
    have hpa : a.s.md.slot ((a.s.md.head + d) % c.n) = some j := by
      rw [ra.mh, k7, ← h.core.mdW.uniq _ _ _ hp0 hj]; exact hp'
    obtain ⟨i, hi1, hi2, hi3⟩ := LsuList.pop_pos (min a.s.md.count c.win) ra.core.mdW hpa
    obtain ⟨dd, hdd, -⟩ := ra.core.mdW.inR _ _ hpa
    have h0 : a.s.md.slot a.s.md.head = none := by
      have := ra.done 0 (by rw [← ra.mc]; omega) p1 p2
      rwa [Nat.add_zero, ← ra.mh, Nat.mod_eq_of_lt ra.core.mdW.head] at this
    have hi4 := hi3 h0 (by omega)
    have hsr : sr.md.slot ((sr.md.head + (d - i)) % c.n) = some j := by
      rw [q6, LsuList.Q.pop_slot, hi2, Nat.mod_add_mod, show a.s.md.head + i + (d - i) = a.s.md.head + d by omega]; exact hpa
    have hs3 : s3.md.slot ((s3.md.head + (d - i)) % c.n) = some j := by rw [fr3.mh]; exact fr3.mg _ _ hsr
    rw [← g8] at hs3
    obtain ⟨e1, e2⟩ := u7 _ j hs3 ((z3 j).mp hl).1
    refine ⟨d - i, by omega, ?_⟩
    show (recover c s4 x).md.slot (((recover c s4 x).md.head + (d - i)) % c.n) = some j
    rw [e1]; exact e2

/-! ### Reachable states -/

theorem reach_inv {c : Cfg} {W : Nat} (hc : CfgOk c W) {y : Sys} (h : Reach c W y) : Inv c y.s := by
  induction h with
  | init => exact inv_init hc.pos
  | step x _ hv hs ih =>
    obtain ⟨y', e, ok⟩ := cycle_ok hc ih hv
    rw [e] at hs
    cases hs
    exact ok.inv

theorem reach_cyc {c : Cfg} {W : Nat} (hc : CfgOk c W) {y y' : Sys} {x : In} (h : Reach c W y) (hv : Valid c W y x) (hs : y.cycle c x = some y') :
    CycOk c y.s x y'.s y'.out := by
  obtain ⟨z, e, ok⟩ := cycle_ok hc (reach_inv hc h) hv
  rw [e] at hs
  cases hs
  exact ok

end Verif.LsuStq

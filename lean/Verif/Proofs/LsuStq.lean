import Verif.Model.LsuStq
import Verif.Proofs.LsuListStep

/-
Store side of the load/store unit: distances in the queue, counts, and the invariant.
-/
namespace Verif.LsuStq

open Verif.Ring
open Verif.LsuList (Q Tlb countP_flip foldl_inv upd_apply)

/-! ### Distances -/

def off (n h x : Nat) : Nat := (x + n - h) % n

theorem off_at {n h i : Nat} (hh : h < n) (hi : i < n) : off n h ((h + i) % n) = i := by
  unfold off
  by_cases hb : h + i < n
  · rw [Nat.mod_eq_of_lt hb, show h + i + n - h = i + n by omega, Nat.add_mod_right, Nat.mod_eq_of_lt hi]
  · rw [Nat.mod_eq_sub_mod (a := h + i) (by omega), Nat.mod_eq_of_lt (a := h + i - n) (by omega),
      show h + i - n + n - h = i by omega, Nat.mod_eq_of_lt hi]

theorem at_off {n h x : Nat} (hh : h < n) (hx : x < n) : (h + off n h x) % n = x := by
  unfold off
  by_cases hb : h ≤ x
  · rw [show x + n - h = (x - h) + n by omega, Nat.add_mod_right, Nat.mod_eq_of_lt (a := x - h) (by omega),
      show h + (x - h) = x by omega, Nat.mod_eq_of_lt hx]
  · rw [Nat.mod_eq_of_lt (a := x + n - h) (by omega), show h + (x + n - h) = x + n by omega, Nat.add_mod_right, Nat.mod_eq_of_lt hx]

theorem off_lt {n h x : Nat} (hh : h < n) : off n h x < n := Nat.mod_lt _ (by omega)

theorem live_iff {c : Cfg} {s : SS} {x : Nat} : s.live c x = true ↔ x < c.n ∧ off c.n s.head x < s.count := by
  unfold SS.live off; simp

/-- After the head has moved on by `k`. -/
theorem off_move {n h k x : Nat} (hh : h < n) (hk : k ≤ n) (hx : x < n) :
    (k ≤ off n h x → off n ((h + k) % n) x = off n h x - k) ∧
    (off n h x < k → off n ((h + k) % n) x = off n h x + n - k) := by
  have e := at_off hh hx
  have ho := off_lt (x := x) hh
  generalize off n h x = o at e ho
  subst e
  constructor
  · intro hle
    have := off_at (n := n) (h := (h + k) % n) (i := o - k) (Nat.mod_lt _ (by omega)) (by omega)
    rwa [Nat.mod_add_mod, show h + k + (o - k) = h + o by omega] at this
  · intro hlt
    have := off_at (n := n) (h := (h + k) % n) (i := o + n - k) (Nat.mod_lt _ (by omega)) (by omega)
    rwa [Nat.mod_add_mod, show h + k + (o + n - k) = h + o + n by omega, Nat.add_mod_right] at this

/-! ### Counts -/

theorem countP_congr' {p p' : Nat → Bool} (h : ∀ j, p' j = p j) (n : Nat) : (List.range n).countP p' = (List.range n).countP p := by
  rw [show p' = p from funext h]

theorem countP_mono' {p p' : Nat → Bool} (h : ∀ j, p' j = true → p j = true) (n : Nat) :
    (List.range n).countP p' ≤ (List.range n).countP p :=
  List.countP_mono_left fun x _ hx => h x hx

theorem countP_pos' {p : Nat → Bool} {x n : Nat} (hx : x < n) (hp : p x = true) : 0 < (List.range n).countP p :=
  List.countP_pos_iff.mpr ⟨x, List.mem_range.mpr hx, hp⟩

/-- Stores in the queue in a state with `p`, by index. -/
def cnt (c : Cfg) (s : SS) (p : SSt → Bool) : Nat := (List.range c.n).countP fun x => s.live c x && p (s.ent x).st

theorem count_at {n h : Nat} (hh : h < n) (p : Nat → Bool) : ∀ k, k ≤ n →
    (List.range n).countP (fun x => (decide (x < n) && decide (off n h x < k)) && p x) = (List.range k).countP fun i => p ((h + i) % n)
  | 0, _ => by simp
  | k + 1, hk => by
    have ih := count_at hh p k (by omega)
    rw [List.range_succ, List.countP_append, ← ih]
    have ha : (h + k) % n < n := Nat.mod_lt _ (by omega)
    have hoa := off_at hh (show k < n by omega)
    have ne : ∀ j, j < n → j ≠ (h + k) % n → (off n h j < k + 1 ↔ off n h j < k) := by
      intro j hj hjk
      have : off n h j ≠ k := fun e => hjk (by rw [← e, at_off hh hj])
      omega
    have ne' : ∀ j, j ≠ (h + k) % n → ((decide (j < n) && decide (off n h j < k)) && p j) = ((decide (j < n) && decide (off n h j < k + 1)) && p j) := by
      intro j hjk
      by_cases hj : j < n
      · rw [decide_eq_decide.mpr (ne j hj hjk)]
      · simp [hj]
    cases hp : p ((h + k) % n) with
    | true =>
      have := countP_flip (p := fun x => (decide (x < n) && decide (off n h x < k + 1)) && p x)
        (p' := fun x => (decide (x < n) && decide (off n h x < k)) && p x) (l := (h + k) % n)
        (by simp [hoa, hp, ha]) (by simp [hoa]) ne' n
      rw [if_pos ha] at this
      simp [hp]; omega
    | false =>
      have := countP_congr' (p' := fun x => (decide (x < n) && decide (off n h x < k + 1)) && p x)
        (p := fun x => (decide (x < n) && decide (off n h x < k)) && p x) (fun j => by
          by_cases e : j = (h + k) % n
          · subst e; simp [hp]
          · exact (ne' j e).symm) n
      rw [this]; simp [hp]

def isAlloc : SSt → Bool
  | .allocated => true
  | _ => false

/-- Not yet ready to be reported. -/
def pend : SSt → Bool
  | .allocated | .waitTlb | .retry | .waitData | .waitDone => true
  | _ => false

theorem nAlloc_eq {c : Cfg} {s : SS} (hh : s.head < c.n) (hc : s.count ≤ c.n) : s.nAlloc c = cnt c s isAlloc := by
  unfold SS.nAlloc cnt
  rw [show (fun x => s.live c x && isAlloc (s.ent x).st) =
    (fun x => (decide (x < c.n) && decide (off c.n s.head x < s.count)) && (fun x => isAlloc (s.ent x).st) x) from rfl,
    count_at hh _ _ hc]
  congr 1
  funext i
  show decide ((s.ent ((s.head + i) % c.n)).st = .allocated) = isAlloc (s.ent ((s.head + i) % c.n)).st
  cases (s.ent ((s.head + i) % c.n)).st <;> rfl

theorem cnt_le {c : Cfg} {s : SS} (hh : s.head < c.n) (hc : s.count ≤ c.n) (p : SSt → Bool) : cnt c s p ≤ s.count := by
  unfold cnt
  rw [show (fun x => s.live c x && p (s.ent x).st) =
    (fun x => (decide (x < c.n) && decide (off c.n s.head x < s.count)) && (fun x => p (s.ent x).st) x) from rfl,
    count_at hh _ _ hc]
  exact Nat.le_trans List.countP_le_length (by simp)

/-! ### The invariant -/

/-- A store with entry `e`, in the first list if `w`, in the second if `m`. -/
structure EOk (e : E) (w m : Prop) : Prop where
  w1 : w → e.st = .waitTlb ∨ e.st = .retry ∨ e.st = .waitDone ∨ e.st = .waitData
  w2 : e.st = .waitTlb ∨ e.st = .retry ∨ e.st = .waitDone → w
  m1 : m → e.st = .ready ∨ e.st = .pageFault
  m2 : e.st = .ready ∨ e.st = .pageFault → m
  d1 : e.st = .waitData → e.dv = false
  d2 : e.st = .ready → e.dv = true
  d3 : e.st = .waitDone ∨ e.st = .waitCommit → e.dv = true ∨ e.pf = true
  p1 : e.st = .pageFault → e.pf = true
  p2 : e.pf = true → e.st = .waitDone ∨ e.st = .pageFault ∨ e.st = .waitCommit ∨ e.st = .gone

/-- Inside a cycle; `A` bounds the stores that may still enter the first list, `B` those of the second. -/
structure Core (c : Cfg) (A B : Nat) (s : SS) : Prop where
  wmW : s.wm.WF c.n
  mdW : s.md.WF c.n
  hd : s.head < c.n
  cl : s.count ≤ c.n
  cm : s.com ≤ s.count
  wmL : ∀ x, s.wm.Mem x → s.live c x = true
  mdL : ∀ x, s.md.Mem x → s.live c x = true
  ok : ∀ x, s.live c x = true → EOk (s.ent x) (s.wm.Mem x) (s.md.Mem x)
  go : ∀ x, s.live c x = true → ((s.ent x).st = .gone ↔ off c.n s.head x < s.com)
  cA : cnt c s isAlloc + s.wm.count ≤ A
  cB : s.md.count + cnt c s pend ≤ B

/-- Between the steps: nothing is left half-way in the first list. -/
def Clean (s : SS) : Prop := ∀ x, s.wm.Mem x → (s.ent x).st = .waitTlb

theorem core_init {c : Cfg} (hn : 0 < c.n) : Core c c.n c.n SS.init := by
  have hl : ∀ x, SS.init.live c x = false := by intro x; simp [SS.live, SS.init]
  have h0 : ∀ p, cnt c SS.init p = 0 := by
    intro p; exact Nat.le_zero.mp (cnt_le (s := SS.init) hn (Nat.zero_le _) p)
  have nm : ∀ x, ¬ Q.init.Mem x := LsuList.Q.init_mem
  refine ⟨LsuList.Q.init_wf hn, LsuList.Q.init_wf hn, hn, Nat.zero_le _, Nat.le_refl _, ?_, ?_, ?_, ?_, ?_, ?_⟩
  · intro x h; exact absurd h (nm x)
  · intro x h; exact absurd h (nm x)
  · intro x h; rw [hl] at h; exact absurd h (by simp)
  · intro x h; rw [hl] at h; exact absurd h (by simp)
  · rw [h0]; exact Nat.zero_le _
  · rw [h0]; exact Nat.zero_le _

theorem live_congr {c : Cfg} {s s' : SS} (hh : s'.head = s.head) (hc : s'.count = s.count) (x : Nat) : s'.live c x = s.live c x := by
  unfold SS.live; rw [hh, hc]

/-- The count when one store changes its state. -/
theorem cnt_upd {c : Cfg} {s s' : SS} (p : SSt → Bool) (hh : s'.head = s.head) (hc : s'.count = s.count) {x : Nat} (hl : s.live c x = true)
    (he : ∀ j, j ≠ x → s'.ent j = s.ent j) :
    cnt c s' p + (if p (s.ent x).st then 1 else 0) = cnt c s p + (if p (s'.ent x).st then 1 else 0) := by
  have hx : x < c.n := (live_iff.mp hl).1
  have hl' : s'.live c x = true := by rw [live_congr hh hc]; exact hl
  unfold cnt
  cases h1 : p (s.ent x).st <;> cases h2 : p (s'.ent x).st
  · simp only [Bool.false_eq_true, if_false, Nat.add_zero]
    refine countP_congr' (fun j => ?_) _
    by_cases e : j = x
    · subst e; rw [h1, h2]; simp
    · rw [he j e, live_congr hh hc]
  · have := countP_flip (p' := fun x => s.live c x && p (s.ent x).st) (p := fun x => s'.live c x && p (s'.ent x).st) (l := x)
      (by simp [hl', h2]) (by simp [h1]) (fun j e => by rw [he j e, live_congr hh hc]) c.n
    rw [if_pos hx] at this
    simp only [Bool.false_eq_true, if_false, if_true, Nat.add_zero]
    exact this.symm
  · have := countP_flip (p := fun x => s.live c x && p (s.ent x).st) (p' := fun x => s'.live c x && p (s'.ent x).st) (l := x)
      (by simp [hl, h1]) (by simp [h2]) (fun j e => by rw [he j e, live_congr hh hc]) c.n
    rw [if_pos hx] at this
    simp only [Bool.false_eq_true, if_false, if_true, Nat.add_zero]
    exact this
  · simp only [if_true, Nat.add_left_inj]
    refine countP_congr' (fun j => ?_) _
    by_cases e : j = x
    · subst e; rw [h1, h2, hl, hl']
    · rw [he j e, live_congr hh hc]

theorem cnt_same {c : Cfg} {s s' : SS} (p : SSt → Bool) (hh : s'.head = s.head) (hc : s'.count = s.count)
    (he : ∀ j, (s'.ent j).st = (s.ent j).st) : cnt c s' p = cnt c s p :=
  countP_congr' (fun j => by rw [he j, live_congr hh hc]) _

theorem cnt_pos {c : Cfg} {s : SS} {x : Nat} (p : SSt → Bool) (hl : s.live c x = true) (hp : p (s.ent x).st = true) : 0 < cnt c s p :=
  countP_pos' (live_iff.mp hl).1 (by simp [hl, hp])

/-- One store changes, the lists change for that store only. -/
theorem Core.upd {c : Cfg} {A B : Nat} {s s' : SS} (h : Core c A B s) {x : Nat} (hl : s.live c x = true)
    (hh : s'.head = s.head) (hc : s'.count = s.count) (hm : s'.com = s.com) (he : ∀ j, j ≠ x → s'.ent j = s.ent j)
    (ww : s'.wm.WF c.n) (mw : s'.md.WF c.n)
    (wo : ∀ j, j ≠ x → (s'.wm.Mem j ↔ s.wm.Mem j)) (mo : ∀ j, j ≠ x → (s'.md.Mem j ↔ s.md.Mem j))
    (ok : EOk (s'.ent x) (s'.wm.Mem x) (s'.md.Mem x)) (go : (s'.ent x).st = .gone ↔ (s.ent x).st = .gone)
    (a : s'.wm.count + (if isAlloc (s'.ent x).st then 1 else 0) ≤ s.wm.count + (if isAlloc (s.ent x).st then 1 else 0))
    (b : s'.md.count + (if pend (s'.ent x).st then 1 else 0) ≤ s.md.count + (if pend (s.ent x).st then 1 else 0)) :
    Core c A B s' := by
  have lv := live_congr (c := c) hh hc
  have ea := cnt_upd isAlloc hh hc hl he
  have eb := cnt_upd pend hh hc hl he
  have ha := h.cA
  have hb := h.cB
  refine ⟨ww, mw, hh ▸ h.hd, hc ▸ h.cl, by rw [hm, hc]; exact h.cm, ?_, ?_, ?_, ?_, by omega, by omega⟩
  · intro j hj
    rw [lv]
    by_cases e : j = x
    · exact e ▸ hl
    · exact h.wmL j ((wo j e).mp hj)
  · intro j hj
    rw [lv]
    by_cases e : j = x
    · exact e ▸ hl
    · exact h.mdL j ((mo j e).mp hj)
  · intro j hj
    rw [lv] at hj
    by_cases e : j = x
    · exact e ▸ ok
    · have t := h.ok j hj
      rw [← he j e] at t
      exact ⟨fun w => t.w1 ((wo j e).mp w), fun w => (wo j e).mpr (t.w2 w), fun w => t.m1 ((mo j e).mp w),
        fun w => (mo j e).mpr (t.m2 w), t.d1, t.d2, t.d3, t.p1, t.p2⟩
  · intro j hj
    rw [lv] at hj
    rw [hh, hm]
    by_cases e : j = x
    · subst e; rw [go]; exact h.go _ hj
    · rw [he j e]; exact h.go j hj

end Verif.LsuStq

import Verif.Model.MemTop
import Verif.Props.Dcache
import Verif.Props.MemRoute

/-
The data cache and the routing block in the composed memory path: answers by port.
-/
namespace Verif.MemTop

open Verif.Dcache
open Verif.MemRoute (Req Resp)
open Verif.Props (Run)

/-! ## The answers of a cycle do not depend on its requests -/

theorem tick_first (s : Dcache.Sys) (ls : List Ld) (ss : List St) (resp : Option Nat) (ack : Bool) :
    (s.step (.tick true ls ss resp ack)).map Prod.snd = (s.step (.tick true [] [] resp ack)).map Prod.snd := by
  unfold Sys.step tick
  dsimp only
  have e : axiStep s.d (s.input true ls ss resp ack) = axiStep s.d (s.input true [] [] resp ack) := rfl
  rw [e]
  cases axiStep s.d (s.input true [] [] resp ack) with
  | none => rfl
  | some x =>
    obtain ⟨s1, taken⟩ := x
    dsimp only [Sys.input]
    unfold coreStep
    cases midStep s1 with
    | none => rfl
    | some d =>
      dsimp only
      cases d.wb.push d.evict with
      | none => rfl
      | some b => rfl

theorem answers_first {s s' : Dcache.Sys} {o : Output} {resp : Option Nat} {ack : Bool} (h : s.step (.tick true [] [] resp ack) = some (s', o))
    (ls : List Ld) (ss : List St) : ∃ s2, s.step (.tick true ls ss resp ack) = some (s2, o) := by
  have e := tick_first s ls ss resp ack
  rw [h] at e
  cases g : s.step (.tick true ls ss resp ack) with
  | none => rw [g] at e; cases e
  | some x =>
    rw [g] at e
    obtain ⟨a, b⟩ := x
    injection e with e
    dsimp only at e
    subst e
    exact ⟨a, rfl⟩

/-! ## Look-ups of the instruction cache are answered with a hit or a conflict -/

def Quick (r : LdResp) : Prop := r.req.probe = true → (r.replay = .hit ∨ r.replay = .conflict) ∧ r.late = false

theorem quick_loadStep (s : Dcache.State) (free : Nat) (x : Ld × Bool) : Quick (loadStep s free x).1 := by
  obtain ⟨r, b⟩ := x
  unfold loadStep Quick
  dsimp only
  split
  · exact fun _ => ⟨.inr rfl, rfl⟩
  · split
    · exact fun _ => ⟨.inl rfl, rfl⟩
    · split
      · exact fun _ => ⟨.inl rfl, rfl⟩
      · split
        · exact fun _ => ⟨.inr rfl, rfl⟩
        · next hp =>
          intro h
          exfalso
          revert h
          split
          · exact fun h => hp h
          · split
            · exact fun h => hp h
            · exact fun h => hp h

theorem quick_loads (s : Dcache.State) : ∀ (xs : List (Ld × Bool)) (free : Nat), ∀ r ∈ (loadsStep s free xs).1, Quick r
  | [], _, r, h => by cases h
  | x :: xs, free, r, h => by
    unfold loadsStep at h
    dsimp only at h
    rcases List.mem_cons.mp h with h | h
    · subst h; exact quick_loadStep s free x
    · exact quick_loads s xs _ r h

theorem quick_fwd (q : Option FillReq) (t : Bool) (r : LdResp) (h : Quick r) : Quick (fwdLoad q t r) := by
  unfold fwdLoad
  split
  · split
    · next hw =>
      intro hp
      rw [Bool.and_eq_true] at hw
      rcases (h hp).1 with e | e <;> (rw [e] at hw; exact absurd hw.1 (by decide))
    · exact h
  · exact h

theorem quick_mid {s : Dcache.State} {d : Mid} (hp : ∀ r ∈ s.pendLd, Quick r) (h : midStep s = some d) : ∀ r ∈ d.rs, Quick r := by
  unfold midStep at h
  dsimp only at h
  split at h
  · cases h
  · injection h with h
    subst h
    intro r hr
    obtain ⟨r0, h0, rfl⟩ := List.mem_map.mp hr
    apply quick_fwd
    rcases List.mem_append.mp h0 with h0 | h0
    · exact hp r0 h0
    · exact quick_loads s _ _ r0 h0

theorem axi_pend {s s1 : Dcache.State} {i : Input} {t : Bool} (h : axiStep s i = some (s1, t)) : s1.pendLd = s.pendLd := by
  unfold axiStep at h
  split at h
  · injection h with h
    injection h with h _
    subst h
    rfl
  · cases h

theorem quick_tick {s s' : Dcache.Sys} {o : Output} {b : Bool} {ls : List Ld} {ss : List St} {resp : Option Nat} {ack : Bool}
    (hp : ∀ r ∈ s.d.pendLd, Quick r) (h : s.step (.tick b ls ss resp ack) = some (s', o)) :
    (∀ r ∈ s'.d.pendLd, Quick r) ∧ ∀ r ∈ o.loads, Quick r := by
  unfold Sys.step tick at h
  dsimp only at h
  cases ha : axiStep s.d (s.input b ls ss resp ack) with
  | none => rw [ha] at h; cases h
  | some x =>
    obtain ⟨s1, t⟩ := x
    rw [ha] at h
    dsimp only at h
    have hp1 : ∀ r ∈ s1.pendLd, Quick r := by rw [axi_pend ha]; exact hp
    unfold coreStep at h
    cases hm : midStep s1 with
    | none => rw [hm] at h; cases h
    | some d =>
      have hq := quick_mid hp1 hm
      rw [hm] at h
      dsimp only at h
      cases hw : d.wb.push d.evict with
      | none => rw [hw] at h; cases h
      | some wb =>
        rw [hw] at h
        injection h with h
        injection h with h1 h2
        subst h1
        subst h2
        dsimp only
        constructor
        · intro r hr
          split at hr
          · cases hr
          · exact hq r hr
        · intro r hr
          split at hr
          · exact hq r hr
          · cases hr

theorem run_quick {mem : BitVec 32 → Line} {s : Dcache.Sys} {M : Spec.ByteMem.Mem} {ld : List Ld} {st : List St} (h : Run mem s M ld st) :
    ∀ r ∈ s.d.pendLd, Quick r := by
  induction h with
  | init => intro r hr; cases hr
  | quiet e hq _ hv hs ih =>
    cases e with
    | tick b ls ss resp ack => exact (quick_tick ih hs).1
    | rdTake =>
      simp only [Sys.step] at hs
      split at hs <;> (injection hs with hs; injection hs with hs _; subst hs; exact ih)
    | rdRead i => injection hs with hs; injection hs with hs _; subst hs; exact ih
    | wrTake =>
      simp only [Sys.step] at hs
      split at hs <;> (injection hs with hs; injection hs with hs _; subst hs; exact ih)
    | wrWrite =>
      simp only [Sys.step] at hs
      split at hs <;> (injection hs with hs; injection hs with hs _; subst hs; exact ih)
  | cycle ld' st' resp ack _ hv hs ih => exact (quick_tick ih hs).1

/-! ## Answers by port -/

theorem deal_map {α β γ : Type} (f : α → γ) : ∀ (ps : List (Option α)) (rs : List β), deal (ps.map (Option.map f)) rs = deal ps rs
  | [], rs => by cases rs <;> rfl
  | none :: ps, rs => by
    show none :: deal (ps.map (Option.map f)) rs = none :: deal ps rs
    rw [deal_map f ps rs]
  | some a :: ps, r :: rs => by
    show some r :: deal (ps.map (Option.map f)) rs = some r :: deal ps rs
    rw [deal_map f ps rs]
  | some a :: ps, [] => by
    show none :: deal (ps.map (Option.map f)) [] = none :: deal ps []
    rw [deal_map f ps []]

theorem deal_get : ∀ (ps : List (Option Ld)) (rs : List LdResp), rs.map (·.req) = ps.filterMap id → ∀ (i : Nat) (x : Option Ld), ps[i]? = some x →
    match x with
    | none => (deal ps rs)[i]? = some none
    | some q => ∃ r ∈ rs, r.req = q ∧ (deal ps rs)[i]? = some (some r)
  | [], _, _, i, x, hx => by simp at hx
  | none :: ps, rs, h, i, x, hx => by
    cases i with
    | zero =>
      rw [List.getElem?_cons_zero] at hx
      injection hx with hx
      subst hx
      rfl
    | succ i =>
      rw [List.getElem?_cons_succ] at hx
      have := deal_get ps rs (by rw [h]; rfl) i x hx
      cases x with
      | none => exact this
      | some q => exact this
  | some p :: ps, [], h, _, _, _ => by
    rw [List.filterMap_cons] at h
    cases h
  | some p :: ps, r :: rs, h, i, x, hx => by
    rw [List.filterMap_cons] at h
    dsimp only [id] at h
    rw [List.map_cons] at h
    injection h with h1 h2
    cases i with
    | zero =>
      rw [List.getElem?_cons_zero] at hx
      injection hx with hx
      subst hx
      exact ⟨r, List.mem_cons_self .., h1, rfl⟩
    | succ i =>
      rw [List.getElem?_cons_succ] at hx
      have := deal_get ps rs h2 i x hx
      cases x with
      | none => exact this
      | some q =>
        obtain ⟨r', a, b, c⟩ := this
        exact ⟨r', List.mem_cons_of_mem _ a, b, c⟩

/-- A request as the cache sees it. -/
def ldOf {p : Nat} (probe : Option (Fin (p + 1))) (i : Fin (p + 1)) (q : Req) : Ld :=
  { addr := q.addr, id := q.id, probe := decide (probe = some i) }

theorem answers_port {p : Nat} {ports : Fin (p + 1) → Option Req} {probe : Option (Fin (p + 1))} {rs : List LdResp}
    (h : rs.map (·.req) = lds ports probe) (i : Fin (p + 1)) :
    match ports i with
    | none => answers ports rs i = none
    | some q => ∃ r ∈ rs, r.req = ldOf probe i q ∧ answers ports rs i = some (respOf r) := by
  have hd : deal ((List.finRange (p + 1)).map ports) rs =
      deal ((List.finRange (p + 1)).map fun i => (ports i).map (ldOf probe i)) rs := by
    have e1 := deal_map (fun _ : Req => ()) ((List.finRange (p + 1)).map ports) rs
    have e2 := deal_map (fun _ : Ld => ()) ((List.finRange (p + 1)).map fun i => (ports i).map (ldOf probe i)) rs
    rw [← e1, ← e2, List.map_map, List.map_map]
    congr 1
    apply List.map_congr_left
    intro j _
    simp only [Function.comp_apply, Option.map_map]
  have hl : rs.map (·.req) = ((List.finRange (p + 1)).map fun i => (ports i).map (ldOf probe i)).filterMap id := by
    rw [h, List.filterMap_map]; rfl
  have hg := deal_get _ _ hl i.val ((ports i).map (ldOf probe i)) (by
    rw [List.getElem?_map, List.getElem?_eq_getElem (by simp)]
    simp)
  unfold answers
  rw [hd]
  cases hp : ports i with
  | none =>
    rw [hp, Option.map_none] at hg
    dsimp only at hg ⊢
    rw [hg]
    rfl
  | some q =>
    rw [hp, Option.map_some] at hg
    obtain ⟨r, a, b, c⟩ := hg
    refine ⟨r, a, b, ?_⟩
    rw [c]
    rfl

end Verif.MemTop

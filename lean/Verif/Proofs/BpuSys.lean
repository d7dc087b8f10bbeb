import Verif.Proofs.BpuBtb
import Verif.Proofs.BpuKey
import Verif.Spec.BpuSys
/- The predictor with its tables. -/
namespace Verif.BpuSys
open Verif.Bpu Verif.BpuTab

theorem pCycle_some {c : Cfg} {tc : TCfg} {b : BCfg} {s s' : PSt} {i : PIn} {o : Out} (h : pCycle c tc b s i = some (s', o)) :
    cycle c s.top (answers c tc b s i) = some (s'.top, o) ∧
    s'.types = typeCycle c tc s.types ((i.upds.filterMap id).map (fun u => (u.pc, u.ty))) ∧
    ∀ bk, s'.tgt bk = match o.train bk with | none => s.tgt bk | some u => btbUpdate b (s.tgt bk) (bUpd c u) := by
  unfold pCycle at h
  rcases hc : cycle c s.top (answers c tc b s i) with _ | ⟨t, o'⟩
  · rw [hc] at h; cases h
  · rw [hc] at h
    simp only [Option.some.injEq, Prod.mk.injEq] at h
    obtain ⟨rfl, rfl⟩ := h
    exact ⟨rfl, rfl, fun _ => rfl⟩

theorem pRun_cons {c : Cfg} {tc : TCfg} {b : BCfg} {s s' : PSt} {i : PIn} {r : List PIn} {os : List Out}
    (h : pRun c tc b s (i :: r) = some (s', os)) :
    ∃ s1 o os', pCycle c tc b s i = some (s1, o) ∧ pRun c tc b s1 r = some (s', os') ∧ os = o :: os' := by
  unfold pRun at h
  rcases hc : pCycle c tc b s i with _ | ⟨s1, o⟩
  · rw [hc] at h; cases h
  · rw [hc] at h
    dsimp only at h
    rcases hr : pRun c tc b s1 r with _ | ⟨s2, os'⟩
    · rw [hr] at h; cases h
    · rw [hr] at h
      simp only [Option.some.injEq, Prod.mk.injEq] at h
      exact ⟨s1, o, os', rfl, by rw [hr, h.1], h.2.symm⟩

theorem pRun_tables {c : Cfg} {tc : TCfg} {b : BCfg} (is : List PIn) : ∀ {s s' : PSt} {os : List Out} {log : TLog} {lb : Nat → BLog},
    s.types = tableOf c tc log → (∀ bk, s.tgt bk = btbOf b (lb bk)) → pRun c tc b s is = some (s', os) →
    (∃ ins, run c s.top ins = some (s'.top, os) ∧ reported ins = retired is) ∧
    s'.types = tableOf c tc (typeLog is ++ log) ∧
    ∀ bk, s'.tgt bk = btbOf b (taught c (os.filterMap (fun o => o.train bk)) ++ lb bk) := by
  induction is with
  | nil =>
    intro s s' os log lb ht hb h
    simp only [pRun, Option.some.injEq, Prod.mk.injEq] at h
    obtain ⟨rfl, rfl⟩ := h
    exact ⟨⟨[], rfl, rfl⟩, ht, hb⟩
  | cons i r ih =>
    intro s s' os log lb ht hb h
    obtain ⟨s1, o, os', hc, hr, rfl⟩ := pRun_cons h
    obtain ⟨h1, h2, h3⟩ := pCycle_some hc
    have hb1 : ∀ bk, s1.tgt bk = btbOf b (taught c (o.train bk).toList ++ lb bk) := by
      intro bk
      rw [h3 bk]
      cases o.train bk with
      | none => exact hb bk
      | some u => dsimp only; rw [hb bk]; rfl
    have ht1 : s1.types = tableOf c tc ((i.upds.filterMap id).map (fun u => (u.pc, u.ty)) :: log) := by
      rw [h2, ht]; rfl
    obtain ⟨⟨ins, i1, i2⟩, i3, i4⟩ := ih ht1 hb1 hr
    refine ⟨⟨answers c tc b s i :: ins, ?_, ?_⟩, ?_, ?_⟩
    · simp [run, h1, i1]
    · simp only [reported, retired, List.flatMap_cons] at i2 ⊢
      rw [i2]
      rfl
    · rw [i3]
      simp [typeLog]
    · intro bk
      rw [i4]
      have : taught c (List.filterMap (fun o => o.train bk) (o :: os')) =
          taught c (List.filterMap (fun o => o.train bk) os') ++ taught c (o.train bk).toList := by
        rw [List.filterMap_cons]
        cases o.train bk <;> simp [taught]
      rw [this, List.append_assoc]

/-- The tables in terms of what was retired. -/
theorem pRun_log {c : Cfg} (ok : c.Ok) {tc : TCfg} {b : BCfg} {pc0 : W32} {is : List PIn} {s : PSt} {os : List Out}
    (h : pRun c tc b (pInit pc0) is = some (s, os)) :
    s.types = tableOf c tc (typeLog is) ∧
    ∀ bk, s.tgt bk = btbOf b (taught c (os.filterMap (fun o => o.train bk))) ∧
      os.filterMap (fun o => o.train bk) ++ (s.top.bank bk).waiting c = ofBank c bk (retired is) := by
  obtain ⟨⟨ins, h1, h2⟩, h3, h4⟩ := pRun_tables (log := []) (lb := fun _ => []) is rfl (fun _ => rfl) h
  rw [List.append_nil] at h3
  refine ⟨h3, fun bk => ⟨?_, ?_⟩⟩
  · rw [h4 bk, List.append_nil]
  · have := run_queue bk ins (inv_init c ok pc0).bank h1
    rw [h2] at this
    rw [this]
    simp [pInit, Bpu.init, QBank.waiting]

/-! ### Slots -/

theorem slots_get' {c : Cfg} {base : W32} {going : Bool} {i : In} {k : Nat} (hk : k < c.fetchWidth) :
    ∃ s, (slots c base going i)[k]? = some s := by
  unfold slots
  rw [List.getElem?_map, List.getElem?_range hk]
  exact ⟨_, rfl⟩

theorem slot_bank_inj {c : Cfg} (ok : c.Ok) {m : Nat} (hl : c.Lines m) {base : W32} {j k : Nat} (hj : j < c.fetchWidth)
    (hk : k < c.fetchWidth) (oj : slotOn c base j = true) (ok' : slotOn c base k = true)
    (he : bankSel c (slotPc base j) = bankSel c (slotPc base k)) : j = k := by
  obtain ⟨s, hs⟩ := slots_get' (c := c) (base := base) (going := true) (i := ⟨none, true, [], fun _ => .nonctl, fun _ => none, fun _ => none⟩) hj
  obtain ⟨t, ht⟩ := slots_get' (c := c) (base := base) (going := true) (i := ⟨none, true, [], fun _ => .nonctl, fun _ => none, fun _ => none⟩) hk
  obtain ⟨-, p1, o1, -⟩ := slots_get hs
  obtain ⟨-, p2, o2, -⟩ := slots_get ht
  have e1 : s.on = true := by rw [o1, p1]; exact oj
  have e2 : t.on = true := by rw [o2, p2]; exact ok'
  have hne : bankSel c s.pc = bankSel c t.pc := by rw [p1, p2]; exact he
  rcases Nat.lt_trichotomy j k with h | h | h
  · exact absurd hne (banks_distinct ok hl hs ht e1 e2 h)
  · exact h
  · exact absurd hne.symm (banks_distinct ok hl ht hs e2 e1 h)

/-- A predicted slot gets the target of its own address and type. -/
theorem answers_btb {c : Cfg} (ok : c.Ok) {m : Nat} (hl : c.Lines m) {tc : TCfg} {b : BCfg} {s : PSt} {i : PIn} {k : Nat}
    (hn : i.refetch = none) (hk : k < c.fetchWidth) (on : slotOn c s.top.pc k = true) :
    (answers c tc b s i).btb (bankSel c (slotPc s.top.pc k)) =
      some (btbPredict b (s.tgt (bankSel c (slotPc s.top.pc k))) (bankPc c (slotPc s.top.pc k))
        (typePredict c tc s.types (slotPc s.top.pc k))) := by
  have key : ∀ (l : List Nat), (∀ x ∈ l, x < c.fetchWidth) → k ∈ l →
      l.find? (fun j => slotOn c s.top.pc j && bankSel c (slotPc s.top.pc j) == bankSel c (slotPc s.top.pc k)) = some k := by
    intro l hlt hmem
    rcases hf : l.find? (fun j => slotOn c s.top.pc j && bankSel c (slotPc s.top.pc j) == bankSel c (slotPc s.top.pc k)) with _ | j
    · rw [List.find?_eq_none] at hf
      exact absurd (by simp [on]) (hf k hmem)
    · have h1 := List.find?_some hf
      have h2 := List.mem_of_find?_eq_some hf
      simp only [Bool.and_eq_true, beq_iff_eq] at h1
      rw [slot_bank_inj ok hl (hlt j h2) hk h1.1 on h1.2]
  unfold answers
  simp only [hn, Option.getD_none]
  rw [key _ (fun x hx => List.mem_range.mp hx) (List.mem_range.mpr hk),
    key _ (fun x hx => List.mem_range.mp (List.mem_reverse.mp hx)) (List.mem_reverse.mpr (List.mem_range.mpr hk))]
  rfl

/-- Slot `k` of the group. -/
theorem sys_slot {c : Cfg} (ok : c.Ok) {m : Nat} (hl : c.Lines m) {tc : TCfg} {b : BCfg} {s : PSt} {i : PIn} {k : Nat} {sl : Slot}
    (hn : i.refetch = none) (h : (slots c s.top.pc true (answers c tc b s i))[k]? = some sl) :
    k < c.fetchWidth ∧ sl.pc = slotPc s.top.pc k ∧ sl.on = slotOn c s.top.pc k ∧
    sl.ty = typePredict c tc s.types (slotPc s.top.pc k) ∧
    sl.taken = (sl.on && predTaken (answers c tc b s i) sl.ty (bankSel c sl.pc)) ∧
    (sl.on = true → sl.target = some (btbPredict b (s.tgt (bankSel c sl.pc)) (bankPc c sl.pc) sl.ty)) := by
  obtain ⟨h1, h2, h3, h4, h5, h6⟩ := slots_get h
  have hty : sl.ty = typePredict c tc s.types (slotPc s.top.pc k) := by
    rw [h4]; unfold answers; simp only [hn, Option.getD_none]
  have hpc : sl.pc = slotPc s.top.pc k := h2
  have hon : sl.on = slotOn c s.top.pc k := by rw [h3, hpc]; rfl
  refine ⟨h1, hpc, hon, hty, ?_, fun ho => ?_⟩
  · rw [h5, ← h4]; rfl
  · rw [h6, hpc, hty]
    exact answers_btb ok hl hn h1 (by rw [← hon]; exact ho)

theorem find_prefix {α : Type} {p : α → Bool} : ∀ {l : List α} {k : Nat} {a : α}, l[k]? = some a → p a = true →
    (∀ j b, j < k → l[j]? = some b → p b = false) → l.find? p = some a := by
  intro l
  induction l with
  | nil => intro k a h; simp at h
  | cons x r ih =>
    intro k a h hp hmin
    cases k with
    | zero =>
      simp only [List.getElem?_cons_zero, Option.some.injEq] at h
      subst h
      rw [List.find?_cons, hp]
    | succ k =>
      rw [List.find?_cons, hmin 0 x (by omega) (by simp)]
      exact ih (by simpa using h) hp (fun j b hj hb => hmin (j + 1) b (by omega) (by simpa using hb))

/-! ### What the tables say when they have room -/

theorem taught_mem {c : Cfg} {us : List Upd} {v : BUpd} (h : v ∈ taught c us) : ∃ u ∈ us, bUpd c u = v := by
  unfold taught at h
  rw [List.mem_reverse, List.mem_map] at h
  exact h

theorem retired_flat (is : List PIn) (us : List (W32 × BrType)) (h : us ∈ typeLog is) :
    ∃ i ∈ is, us = (i.upds.filterMap id).map (fun u => (u.pc, u.ty)) := by
  unfold typeLog at h
  rw [List.mem_reverse, List.mem_map] at h
  obtain ⟨i, hi, he⟩ := h
  exact ⟨i, hi, he.symm⟩

theorem type_exact {c : Cfg} {tc : TCfg} (hw : 0 < tc.ways) {is : List PIn} {pc : W32} (hf : TypeFits c tc is pc) :
    typePredict c tc (tableOf c tc (typeLog is)) pc = lastType c tc is pc := by
  obtain ⟨A, hA, hin⟩ := hf.room
  have hrow : ∀ i : PIn, rowUps c tc (typeKey c tc pc).1 ((i.upds.filterMap id).map (fun u => (u.pc, u.ty))) =
      ((i.upds.filterMap id).filter (fun u => (typeKey c tc u.pc).1 == (typeKey c tc pc).1)).map (fun u => ((typeKey c tc u.pc).2, u.ty)) := by
    intro i
    unfold rowUps
    rw [List.filter_map, List.map_map]
    rfl
  have := (retain hw (typeKey c tc pc).1 (K := A.map (fun a => (typeKey c tc a).2)) (by simpa using hA) (typeLog is)
    (fun us hus => by
      obtain ⟨i, hi, rfl⟩ := retired_flat is us hus
      rw [hrow, List.length_map]
      exact hf.apart i hi)
    (fun us hus p hp => by
      obtain ⟨i, hi, rfl⟩ := retired_flat is us hus
      rw [hrow] at hp
      obtain ⟨u, hu, rfl⟩ := List.mem_map.mp hp
      rw [List.mem_filter, beq_iff_eq] at hu
      obtain ⟨a, ha, he⟩ := hin u (List.mem_flatMap.mpr ⟨i, hi, hu.1⟩) hu.2
      exact List.mem_map.mpr ⟨a, ha, by rw [he]⟩)).2 pc rfl
  rw [predict_look, this]
  unfold lastType
  cases hlat : latest c tc pc (typeLog is) with
  | nil => rfl
  | cons t r =>
    simp only [List.head?_cons, Option.bind_some, List.headD_cons]
    by_cases ht : t = .nonctl
    · simp [ht]
    · simp [ht]

theorem target_exact {c : Cfg} {b : BCfg} (hw : 0 < b.ways) {is : List PIn} {pc : W32} (hf : TargetFits c b is pc) {us : List Upd}
    (hus : ∀ u ∈ us, u ∈ retired is ∧ bankSel c u.pc = bankSel c pc) {ty : BrType} (h1 : ty ≠ .idirect) (h2 : ty ≠ .nonctl) :
    btbPredict b (btbOf b (taught c us)) (bankPc c pc) ty =
      (lastTarget b (bankPc c pc) (taught c us)).getD (bankPc c pc + 4#32) := by
  obtain ⟨A, hA, hin⟩ := hf
  rw [predict_main b _ _ h1 h2]
  rw [(btb_keeps hw (btbIdx b (bankPc c pc)) (K := A.map (fun a => btbTag b (bankPc c a))) (by simpa using hA) (taught c us)
    (fun v hv ht hi => by
      obtain ⟨u, hu, rfl⟩ := taught_mem hv
      obtain ⟨r1, r2⟩ := hus u hu
      obtain ⟨a, ha, he⟩ := hin u r1 r2 ht hi
      exact List.mem_map.mpr ⟨a, ha, he.symm⟩)).2 (bankPc c pc) rfl]

end Verif.BpuSys

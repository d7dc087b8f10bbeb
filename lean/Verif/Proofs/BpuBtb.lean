import Verif.Proofs.BpuType
/- The target predictor. -/
namespace Verif.BpuTab
open Verif.Bpu (W32 BrType)

theorem write_dest (n : Nat) (s : Nat → BEntry) (tag : Nat) (target : W32) (fresh : Nat) :
    (targetWrite n s tag target fresh).1 = dest n (btbVictim n s) s tag ∧ (targetWrite n s tag target fresh).2.valid = true ∧
    (targetWrite n s tag target fresh).2.tag = tag ∧ (targetWrite n s tag target fresh).2.pay = target := ⟨rfl, rfl, rfl, rfl⟩

theorem btb_bht (b : BCfg) (T : BTable) (u : BUpd) (j : Nat) :
    (btbUpdate b T u).bht j = if u.ty ≠ .nonctl ∧ bhtIdx b u.pc = j then bhtNext b (T.bht j) u.ty u.dir u.target else T.bht j := by
  have h : (btbUpdate b T u).bht = if u.ty = .nonctl then T.bht else (fun j => if j = bhtIdx b u.pc then
      (if u.ty = .nonctl then T.bht (bhtIdx b u.pc) else bhtNext b (T.bht (bhtIdx b u.pc)) u.ty u.dir u.target) else T.bht j) := by
    unfold btbUpdate
    dsimp only
    split <;> rfl
  rw [h]
  by_cases h1 : u.ty = .nonctl
  · simp [h1]
  · rw [if_neg h1, if_neg h1]
    by_cases h2 : bhtIdx b u.pc = j
    · rw [if_pos h2.symm, if_pos ⟨h1, h2⟩, h2]
    · rw [if_neg (fun e => h2 e.symm), if_neg (fun e => h2 e.2)]

theorem bht_hist (b : BCfg) (j : Nat) (log : BLog) : (btbOf b log).bht j = histOf b j log := by
  induction log with
  | nil => rfl
  | cons u r ih =>
    show (btbUpdate b (btbOf b r) u).bht j = _
    rw [btb_bht, ih]
    rfl

/-- The entry written into the main table. -/
def mainEntry (b : BCfg) (T : BTable) (u : BUpd) : BEntry :=
  let p := targetWrite b.ways (T.btb (btbIdx b u.pc)) (btbTag b u.pc) u.target 1
  if u.ty = .idirect then { p.2 with rank := b.idirInit } else p.2

theorem mainEntry_spec (b : BCfg) (T : BTable) (u : BUpd) :
    (mainEntry b T u).valid = true ∧ (mainEntry b T u).tag = btbTag b u.pc ∧ (mainEntry b T u).pay = u.target := by
  unfold mainEntry
  dsimp only
  split <;> exact ⟨rfl, rfl, rfl⟩

theorem btb_main (b : BCfg) (T : BTable) (u : BUpd) (j : Nat) :
    (btbUpdate b T u).btb j = if teaches b u = true ∧ btbIdx b u.pc = j then
      put (T.btb j) (dest b.ways (btbVictim b.ways (T.btb j)) (T.btb j) (btbTag b u.pc)) (mainEntry b T u) else T.btb j := by
  have ht : teaches b u = (u.dir && match u.ty with
    | .direct | .call | .ret | .jal => true
    | .idirect => b.idirTrain
    | .nonctl => false) := by
    unfold teaches
    cases u.ty <;> cases u.dir <;> cases b.idirTrain <;> rfl
  have h : (btbUpdate b T u).btb = if teaches b u = true then (fun k => if k = btbIdx b u.pc then
      put (T.btb (btbIdx b u.pc)) (dest b.ways (btbVictim b.ways (T.btb (btbIdx b u.pc))) (T.btb (btbIdx b u.pc)) (btbTag b u.pc))
        (mainEntry b T u) else T.btb k) else T.btb := by
    rw [ht]
    unfold btbUpdate
    dsimp only
    split <;> rfl
  rw [h]
  by_cases h1 : teaches b u = true
  · rw [if_pos h1]
    by_cases h2 : btbIdx b u.pc = j
    · rw [if_pos h2.symm, if_pos ⟨h1, h2⟩, h2]
    · rw [if_neg (fun e => h2 e.symm), if_neg (fun e => h2 e.2)]
  · rw [if_neg h1, if_neg (fun e => h1 e.1)]

theorem btb_tc (b : BCfg) (T : BTable) (u : BUpd) (j : Nat) (h' : W32)
    (hh : h' = if u.ty = .nonctl then T.bht (bhtIdx b u.pc) else bhtNext b (T.bht (bhtIdx b u.pc)) u.ty u.dir u.target) :
    (btbUpdate b T u).tc j = if u.dir = true ∧ u.ty = .idirect ∧ tcIdx b u.pc h' = j then
      put (T.tc j) (dest b.tcWays (btbVictim b.tcWays (T.tc j)) (T.tc j) (tcTag b u.pc))
        (targetWrite b.tcWays (T.tc j) (tcTag b u.pc) u.target b.tcInit).2 else T.tc j := by
  unfold btbUpdate
  dsimp only
  rw [← hh]
  by_cases h1 : u.dir = true ∧ u.ty = .idirect
  · have hif : (u.dir && u.ty == .idirect) = true := by rw [h1.1, h1.2]; rfl
    simp only [hif, if_true]
    by_cases h2 : tcIdx b u.pc h' = j
    · rw [if_pos h2.symm, if_pos ⟨h1.1, h1.2, h2⟩, h2]
      rfl
    · rw [if_neg (fun e => h2 e.symm), if_neg (fun e => h2 e.2.2)]
  · have hif : (u.dir && u.ty == .idirect) = false := by
      rcases hx : (u.dir && u.ty == .idirect) with _ | _
      · rfl
      · rw [Bool.and_eq_true, beq_iff_eq] at hx; exact absurd hx h1
    simp only [hif, Bool.false_eq_true, if_false]
    rw [if_neg (fun e => h1 ⟨e.1, e.2.1⟩)]

theorem btb_tc' (b : BCfg) (T : BTable) (u : BUpd) (j : Nat) :
    (btbUpdate b T u).tc j = if u.dir = true ∧ u.ty = .idirect ∧ tcIdx b u.pc ((btbUpdate b T u).bht (bhtIdx b u.pc)) = j then
      put (T.tc j) (dest b.tcWays (btbVictim b.tcWays (T.tc j)) (T.tc j) (tcTag b u.pc))
        (targetWrite b.tcWays (T.tc j) (tcTag b u.pc) u.target b.tcInit).2 else T.tc j := by
  refine btb_tc b T u j _ ?_
  rw [btb_bht]
  by_cases h : u.ty = .nonctl
  · rw [if_pos h, if_neg (fun e => e.1 h)]
  · rw [if_neg h, if_pos ⟨h, rfl⟩]

theorem btb_pre (b : BCfg) (T : BTable) (u : BUpd) (j : Nat) :
    (btbUpdate b T u).tcPre j = if u.dir = true ∧ u.ty = .idirect ∧ tcIdx b u.pc (T.bht (bhtIdx b u.pc)) = j then
      put (T.tcPre j) (dest b.tcWays (btbVictim b.tcWays (T.tcPre j)) (T.tcPre j) (tcTag b u.pc))
        (targetWrite b.tcWays (T.tcPre j) (tcTag b u.pc) u.target b.tcInit).2 else T.tcPre j := by
  unfold btbUpdate
  dsimp only
  by_cases h1 : u.dir = true ∧ u.ty = .idirect
  · have hif : (u.dir && u.ty == .idirect) = true := by rw [h1.1, h1.2]; rfl
    simp only [hif, if_true]
    by_cases h2 : tcIdx b u.pc (T.bht (bhtIdx b u.pc)) = j
    · rw [if_pos h2.symm, if_pos ⟨h1.1, h1.2, h2⟩, h2]
      rfl
    · rw [if_neg (fun e => h2 e.symm), if_neg (fun e => h2 e.2.2)]
  · have hif : (u.dir && u.ty == .idirect) = false := by
      rcases hx : (u.dir && u.ty == .idirect) with _ | _
      · rfl
      · rw [Bool.and_eq_true, beq_iff_eq] at hx; exact absurd hx h1
    simp only [hif, Bool.false_eq_true, if_false]
    rw [if_neg (fun e => h1 ⟨e.1, e.2.1⟩)]

/-- A tag is in one way of a set only. -/
structure Uniq (b : BCfg) (T : BTable) : Prop where
  btb : ∀ j, Unique b.ways (T.btb j)
  tc : ∀ j, Unique b.tcWays (T.tc j)
  pre : ∀ j, Unique b.tcWays (T.tcPre j)

theorem uniq_of (b : BCfg) (log : BLog) : Uniq b (btbOf b log) := by
  induction log with
  | nil => exact ⟨fun _ _ _ _ _ h => (by cases h), fun _ _ _ _ _ h => (by cases h), fun _ _ _ _ _ h => (by cases h)⟩
  | cons u r ih =>
    refine ⟨fun j => ?_, fun j => ?_, fun j => ?_⟩
    · show Unique b.ways ((btbUpdate b (btbOf b r) u).btb j)
      rw [btb_main]
      split
      · exact put_unique (ih.btb j) _ _ (mainEntry_spec b _ u).2.1
      · exact ih.btb j
    · show Unique b.tcWays ((btbUpdate b (btbOf b r) u).tc j)
      rw [btb_tc' b _ u j]
      split
      · exact put_unique (ih.tc j) _ _ rfl
      · exact ih.tc j
    · show Unique b.tcWays ((btbUpdate b (btbOf b r) u).tcPre j)
      rw [btb_pre]
      split
      · exact put_unique (ih.pre j) _ _ rfl
      · exact ih.pre j

/-! ### The tables say what they were told last, or nothing -/

theorem btb_says (b : BCfg) (pc : W32) (log : BLog) :
    look b.ways ((btbOf b log).btb (btbIdx b pc)) (btbTag b pc) = none ∨
    (look b.ways ((btbOf b log).btb (btbIdx b pc)) (btbTag b pc)).map Way.pay = lastTarget b pc log := by
  by_cases hn : 0 < b.ways
  case neg =>
    left; rw [look_none_iff]; intro w hw; omega
  induction log with
  | nil => left; rw [look_none_iff]; intro w _ h; cases h
  | cons u r ih =>
    have hu := (uniq_of b r).btb
    show look b.ways ((btbUpdate b (btbOf b r) u).btb (btbIdx b pc)) (btbTag b pc) = none ∨
      (look b.ways ((btbUpdate b (btbOf b r) u).btb (btbIdx b pc)) (btbTag b pc)).map Way.pay = _
    rw [btb_main]
    unfold lastTarget
    rw [List.find?_cons]
    by_cases h1 : teaches b u = true ∧ btbIdx b u.pc = btbIdx b pc
    · rw [if_pos h1]
      by_cases h2 : btbTag b u.pc = btbTag b pc
      · have hm : (teaches b u && btbIdx b u.pc == btbIdx b pc && btbTag b u.pc == btbTag b pc) = true := by
          simp [h1, h2]
        rw [hm, h2]
        right
        obtain ⟨e1, e2, e3⟩ := mainEntry_spec b (btbOf b r) u
        rw [look_put_self (hu _) (btbVictim_lt hn _) _ _ (e2.trans h2) e1]
        simp [e3]
      · have hm : (teaches b u && btbIdx b u.pc == btbIdx b pc && btbTag b u.pc == btbTag b pc) = false := by
          simp [h2]
        rw [hm]
        rcases look_put_other (v := btbVictim b.ways ((btbOf b r).btb (btbIdx b pc))) (hu (btbIdx b pc))
          (mainEntry b (btbOf b r) u) (mainEntry_spec b (btbOf b r) u).2.1 (fun e => h2 e.symm) with a | a
        · exact Or.inl a
        · rw [a]; exact ih
    · have hm : (teaches b u && btbIdx b u.pc == btbIdx b pc && btbTag b u.pc == btbTag b pc) = false := by
        rcases hx : (teaches b u && btbIdx b u.pc == btbIdx b pc && btbTag b u.pc == btbTag b pc) with _ | _
        · rfl
        · simp only [Bool.and_eq_true, beq_iff_eq] at hx
          exact absurd hx.1 h1
      rw [if_neg h1, hm]
      exact ih

theorem tc_says (b : BCfg) (pc : W32) (i : Nat) (log : BLog) :
    look b.tcWays ((btbOf b log).tc i) (tcTag b pc) = none ∨
    (look b.tcWays ((btbOf b log).tc i) (tcTag b pc)).map Way.pay = lastAfter b pc i log := by
  by_cases hn : 0 < b.tcWays
  case neg =>
    left; rw [look_none_iff]; intro w hw; omega
  induction log with
  | nil => left; rw [look_none_iff]; intro w _ h; cases h
  | cons u r ih =>
    have hu := (uniq_of b r).tc
    have hh : (btbUpdate b (btbOf b r) u).bht (bhtIdx b u.pc) = histOf b (bhtIdx b u.pc) (u :: r) := bht_hist b _ (u :: r)
    show look b.tcWays ((btbUpdate b (btbOf b r) u).tc i) (tcTag b pc) = none ∨
      (look b.tcWays ((btbUpdate b (btbOf b r) u).tc i) (tcTag b pc)).map Way.pay = _
    rw [btb_tc', hh]
    unfold lastAfter
    by_cases h1 : u.dir = true ∧ u.ty = .idirect ∧ tcIdx b u.pc (histOf b (bhtIdx b u.pc) (u :: r)) = i
    · rw [if_pos h1]
      by_cases h2 : tcTag b u.pc = tcTag b pc
      · rw [if_pos ⟨h1.1, h1.2.1, h2, h1.2.2⟩, h2]
        right
        rw [look_put_self (hu i) (btbVictim_lt hn _) (tcTag b pc)
          (targetWrite b.tcWays ((btbOf b r).tc i) (tcTag b pc) u.target b.tcInit).2 rfl rfl]
        rfl
      · rw [if_neg (fun e => h2 e.2.2.1)]
        rcases look_put_other (v := btbVictim b.tcWays ((btbOf b r).tc i)) (hu i) (t := tcTag b u.pc)
          (targetWrite b.tcWays ((btbOf b r).tc i) (tcTag b u.pc) u.target b.tcInit).2 rfl (fun e => h2 e.symm) with a | a
        · exact Or.inl a
        · rw [a]; exact ih
    · rw [if_neg h1, if_neg (fun e => h1 ⟨e.1, e.2.1, e.2.2.2⟩)]
      exact ih

theorem pre_says (b : BCfg) (pc : W32) (i : Nat) (log : BLog) :
    look b.tcWays ((btbOf b log).tcPre i) (tcTag b pc) = none ∨
    (look b.tcWays ((btbOf b log).tcPre i) (tcTag b pc)).map Way.pay = lastBefore b pc i log := by
  by_cases hn : 0 < b.tcWays
  case neg =>
    left; rw [look_none_iff]; intro w hw; omega
  induction log with
  | nil => left; rw [look_none_iff]; intro w _ h; cases h
  | cons u r ih =>
    have hu := (uniq_of b r).pre
    show look b.tcWays ((btbUpdate b (btbOf b r) u).tcPre i) (tcTag b pc) = none ∨
      (look b.tcWays ((btbUpdate b (btbOf b r) u).tcPre i) (tcTag b pc)).map Way.pay = _
    rw [btb_pre, bht_hist]
    unfold lastBefore
    by_cases h1 : u.dir = true ∧ u.ty = .idirect ∧ tcIdx b u.pc (histOf b (bhtIdx b u.pc) r) = i
    · rw [if_pos h1]
      by_cases h2 : tcTag b u.pc = tcTag b pc
      · rw [if_pos ⟨h1.1, h1.2.1, h2, h1.2.2⟩, h2]
        right
        rw [look_put_self (hu i) (btbVictim_lt hn _) (tcTag b pc)
          (targetWrite b.tcWays ((btbOf b r).tcPre i) (tcTag b pc) u.target b.tcInit).2 rfl rfl]
        rfl
      · rw [if_neg (fun e => h2 e.2.2.1)]
        rcases look_put_other (v := btbVictim b.tcWays ((btbOf b r).tcPre i)) (hu i) (t := tcTag b u.pc)
          (targetWrite b.tcWays ((btbOf b r).tcPre i) (tcTag b u.pc) u.target b.tcInit).2 rfl (fun e => h2 e.symm) with a | a
        · exact Or.inl a
        · rw [a]; exact ih
    · rw [if_neg h1, if_neg (fun e => h1 ⟨e.1, e.2.1, e.2.2.2⟩)]
      exact ih

/-! ### Predictions in terms of look-ups -/

theorem predict_main (b : BCfg) (T : BTable) (pc : W32) {ty : BrType} (h1 : ty ≠ .idirect) (h2 : ty ≠ .nonctl) :
    btbPredict b T pc ty = ((look b.ways (T.btb (btbIdx b pc)) (btbTag b pc)).map Way.pay).getD (pc + 4#32) := by
  unfold btbPredict look
  cases ty <;> simp only [ne_eq, not_true_eq_false, reduceCtorEq, not_false_eq_true] at h1 h2 <;>
    · dsimp only
      rcases hitWay b.ways (T.btb (btbIdx b pc)) (btbTag b pc) with _ | w <;> rfl

theorem predict_idirect (b : BCfg) (T : BTable) (pc : W32) (i : Nat) (hi : i = tcIdx b pc (T.bht (bhtIdx b pc))) :
    btbPredict b T pc .idirect =
      match look b.tcWays (T.tcPre i) (tcTag b pc), look b.tcWays (T.tc i) (tcTag b pc) with
      | some e, none => e.pay
      | some e, some f => if 3 ≤ T.mode (bhtIdx b pc) then e.pay else f.pay
      | none, some f => f.pay
      | none, none => ((if b.idirFallback then look b.ways (T.btb (btbIdx b pc)) (btbTag b pc) else none).map Way.pay).getD (pc + 4#32) := by
  unfold btbPredict look
  dsimp only
  rw [← hi]
  rcases hitWay b.tcWays (T.tcPre i) (tcTag b pc) with _ | w <;> rcases hitWay b.tcWays (T.tc i) (tcTag b pc) with _ | v <;>
    try rfl
  cases b.idirFallback
  · rfl
  · rcases hitWay b.ways (T.btb (btbIdx b pc)) (btbTag b pc) with _ | x <;> rfl

/-! ### No eviction while the targets of a set fit -/

theorem btb_keeps {b : BCfg} (hn : 0 < b.ways) (j : Nat) {K : List Nat} (hK : K.length ≤ b.ways) (log : BLog)
    (hin : ∀ u ∈ log, teaches b u = true → btbIdx b u.pc = j → btbTag b u.pc ∈ K) :
    (∀ w, w < b.ways → ((btbOf b log).btb j w).valid = true → ((btbOf b log).btb j w).tag ∈ K) ∧
    ∀ pc, btbIdx b pc = j → (look b.ways ((btbOf b log).btb j) (btbTag b pc)).map Way.pay = lastTarget b pc log := by
  induction log with
  | nil =>
    refine ⟨fun w _ h => by simp [btbOf, bInit] at h, fun pc _ => ?_⟩
    have : look b.ways ((btbOf b []).btb j) (btbTag b pc) = none := by rw [look_none_iff]; intro w _ h; cases h
    rw [this]; rfl
  | cons u r ih =>
    obtain ⟨ih1, ih2⟩ := ih (fun u h => hin u (by simp [h]))
    have hu := (uniq_of b r).btb j
    have hm : ∀ pc, btbIdx b pc = j → lastTarget b pc (u :: r) =
        if teaches b u = true ∧ btbIdx b u.pc = j ∧ btbTag b u.pc = btbTag b pc then some u.target else lastTarget b pc r := by
      intro pc hpc
      unfold lastTarget
      rw [List.find?_cons]
      rcases hx : (teaches b u && btbIdx b u.pc == btbIdx b pc && btbTag b u.pc == btbTag b pc) with _ | _
      · rw [if_neg ?_]
        rintro ⟨a1, a2, a3⟩
        rw [a1, a2, a3, hpc] at hx
        simp at hx
      · simp only [Bool.and_eq_true, beq_iff_eq] at hx
        rw [if_pos ⟨hx.1.1, hx.1.2.trans hpc, hx.2⟩]
        rfl
    have hb : (btbOf b (u :: r)).btb j = _ := btb_main b (btbOf b r) u j
    rw [hb]
    by_cases h1 : teaches b u = true ∧ btbIdx b u.pc = j
    · rw [if_pos h1]
      obtain ⟨e1, e2, e3⟩ := mainEntry_spec b (btbOf b r) u
      have ht := hin u (by simp) h1.1 h1.2
      have hfree : hitWay b.ways ((btbOf b r).btb j) (btbTag b u.pc) = none →
          ((btbOf b r).btb j (btbVictim b.ways ((btbOf b r).btb j))).valid = false := by
        intro hmiss
        obtain ⟨w, hw⟩ := free_of_fit hu hK ih1 ht hmiss
        unfold btbVictim
        rw [hw]
        exact (freeWay_some hw).2
      refine ⟨fun w hw hval => ?_, fun pc hpc => ?_⟩
      · by_cases hd : w = dest b.ways (btbVictim b.ways ((btbOf b r).btb j)) ((btbOf b r).btb j) (btbTag b u.pc)
        · simp only [put, if_pos hd, e2]; exact ht
        · simp only [put, if_neg hd] at hval ⊢; exact ih1 w hw hval
      · rw [hm pc hpc]
        by_cases h2 : btbTag b u.pc = btbTag b pc
        · rw [if_pos ⟨h1.1, h1.2, h2⟩, ← h2, look_put_self hu (btbVictim_lt hn _) _ _ e2 e1]
          simp [e3]
        · rw [if_neg (fun e => h2 e.2.2), look_put_keep hu _ e2 (fun e => h2 e.symm) hfree]
          exact ih2 pc hpc
    · rw [if_neg h1]
      refine ⟨ih1, fun pc hpc => ?_⟩
      rw [hm pc hpc, if_neg (fun e => h1 ⟨e.1, e.2.1⟩)]
      exact ih2 pc hpc

/-! ### Bounds -/

theorem useful_le {v : Nat} (h : v ≤ 7) (c : Bool) : usefulNext v c ≤ 7 := by
  unfold usefulNext
  split <;> split <;> omega

theorem mode_le (m : Nat) (c : Bool) (h : m ≤ 6) : modeNext m c ≤ 6 := by
  unfold modeNext
  split <;> split <;> omega

theorem mode_ite {p : Prop} [Decidable p] {f g : Nat → Nat} {j : Nat} (hf : f j ≤ 6) (hg : g j ≤ 6) : (if p then f else g) j ≤ 6 := by
  split
  · exact hf
  · exact hg

theorem write_rank {n : Nat} {s : Nat → BEntry} (h : ∀ w, (s w).rank ≤ 7) {tag : Nat} {t : W32} {f : Nat} (hf : f ≤ 7) :
    (targetWrite n s tag t f).2.rank ≤ 7 := by
  unfold targetWrite
  dsimp only
  split
  · exact useful_le (h _) _
  · exact hf

theorem put_rank {s : Nat → BEntry} (h : ∀ w, (s w).rank ≤ 7) (v : Nat) {e : BEntry} (he : e.rank ≤ 7) (w : Nat) :
    (put s v e w).rank ≤ 7 := by
  unfold put
  split
  · exact he
  · exact h w

structure Bounded (b : BCfg) (T : BTable) : Prop where
  btb : ∀ j w, (T.btb j w).rank ≤ 7
  tc : ∀ j w, (T.tc j w).rank ≤ 7
  pre : ∀ j w, (T.tcPre j w).rank ≤ 7
  mode : ∀ j, T.mode j ≤ 6
  hist : ∀ j, (T.bht j).toNat < 2 ^ b.histW

theorem bhtNext_lt (b : BCfg) (cur : W32) (ty : BrType) (dir : Bool) (t : W32) : (bhtNext b cur ty dir t).toNat < 2 ^ b.histW := by
  unfold bhtNext
  dsimp only
  by_cases h : b.histW < 32
  · rw [if_pos h, BitVec.toNat_and]
    have h1 : ((1#32 <<< b.histW) - 1#32).toNat = 2 ^ b.histW - 1 := by
      have hlt : 2 ^ b.histW < 2 ^ 32 := Nat.pow_lt_pow_right (by omega) h
      have hpos : 0 < 2 ^ b.histW := Nat.two_pow_pos _
      have h2 : (1#32 <<< b.histW).toNat = 2 ^ b.histW := by
        rw [BitVec.toNat_shiftLeft, Nat.shiftLeft_eq]
        simp only [BitVec.toNat_ofNat]
        rw [show 1 % 2 ^ 32 = 1 from rfl, Nat.one_mul, Nat.mod_eq_of_lt hlt]
      rw [BitVec.toNat_sub, h2]
      simp only [BitVec.toNat_ofNat]
      rw [show 1 % 2 ^ 32 = 1 from rfl]
      omega
    rw [h1]
    have := Nat.two_pow_pos b.histW
    exact Nat.lt_of_le_of_lt Nat.and_le_right (by omega)
  · have h2 : 2 ^ 32 ≤ 2 ^ b.histW := Nat.pow_le_pow_right (by omega) (by omega)
    exact Nat.lt_of_lt_of_le (BitVec.isLt _) h2

theorem bounded_of {b : BCfg} (h1 : b.idirInit ≤ 7) (h2 : b.tcInit ≤ 7) (log : BLog) : Bounded b (btbOf b log) := by
  induction log with
  | nil =>
    exact ⟨fun _ _ => Nat.zero_le _, fun _ _ => Nat.zero_le _, fun _ _ => Nat.zero_le _, fun _ => (by decide : (2 : Nat) ≤ 6),
      fun _ => Nat.two_pow_pos _⟩
  | cons u r ih =>
    refine ⟨fun j => ?_, fun j => ?_, fun j => ?_, fun j => ?_, fun j => ?_⟩
    · show ∀ w, ((btbUpdate b (btbOf b r) u).btb j w).rank ≤ 7
      rw [btb_main]
      split
      · refine put_rank (ih.btb j) _ ?_
        unfold mainEntry
        dsimp only
        split
        · exact h1
        · exact write_rank (ih.btb _) (by decide)
      · exact ih.btb j
    · show ∀ w, ((btbUpdate b (btbOf b r) u).tc j w).rank ≤ 7
      rw [btb_tc']
      split
      · exact put_rank (ih.tc j) _ (write_rank (ih.tc j) h2)
      · exact ih.tc j
    · show ∀ w, ((btbUpdate b (btbOf b r) u).tcPre j w).rank ≤ 7
      rw [btb_pre]
      split
      · exact put_rank (ih.pre j) _ (write_rank (ih.pre j) h2)
      · exact ih.pre j
    · show (btbUpdate b (btbOf b r) u).mode j ≤ 6
      unfold btbUpdate
      dsimp only
      split
      · refine mode_ite ?_ (ih.mode j)
        by_cases hj : j = bhtIdx b u.pc
        · rw [if_pos hj]; exact mode_le _ _ (ih.mode _)
        · rw [if_neg hj]; exact ih.mode j
      · exact ih.mode j
    · show ((btbUpdate b (btbOf b r) u).bht j).toNat < _
      rw [btb_bht]
      split
      · exact bhtNext_lt _ _ _ _ _
      · exact ih.hist j

/-! ### Provenance -/

theorem lastTarget_mem {b : BCfg} {pc : W32} {log : BLog} {t : W32} (h : lastTarget b pc log = some t) :
    ∃ u ∈ log, teaches b u = true ∧ btbIdx b u.pc = btbIdx b pc ∧ btbTag b u.pc = btbTag b pc ∧ u.target = t := by
  unfold lastTarget at h
  obtain ⟨u, hu, ht⟩ := Option.map_eq_some_iff.mp h
  have h1 := List.find?_some hu
  simp only [Bool.and_eq_true, beq_iff_eq] at h1
  exact ⟨u, List.mem_of_find?_eq_some hu, h1.1.1, h1.1.2, h1.2, ht⟩

theorem lastAfter_mem {b : BCfg} {pc : W32} {i : Nat} {log : BLog} {t : W32} (h : lastAfter b pc i log = some t) :
    ∃ u ∈ log, u.dir = true ∧ u.ty = .idirect ∧ tcTag b u.pc = tcTag b pc ∧ u.target = t := by
  induction log with
  | nil => cases h
  | cons u r ih =>
    unfold lastAfter at h
    split at h
    · next hc => exact ⟨u, by simp, hc.1, hc.2.1, hc.2.2.1, by simpa using h⟩
    · obtain ⟨v, hv, hr⟩ := ih h
      exact ⟨v, by simp [hv], hr⟩

theorem lastBefore_mem {b : BCfg} {pc : W32} {i : Nat} {log : BLog} {t : W32} (h : lastBefore b pc i log = some t) :
    ∃ u ∈ log, u.dir = true ∧ u.ty = .idirect ∧ tcTag b u.pc = tcTag b pc ∧ u.target = t := by
  induction log with
  | nil => cases h
  | cons u r ih =>
    unfold lastBefore at h
    split at h
    · next hc => exact ⟨u, by simp, hc.1, hc.2.1, hc.2.2.1, by simpa using h⟩
    · obtain ⟨v, hv, hr⟩ := ih h
      exact ⟨v, by simp [hv], hr⟩

/-- Where an indirect prediction comes from. -/
theorem idirect_source (b : BCfg) (log : BLog) (pc : W32) :
    (lastBefore b pc (rowNow b pc log) log = some (btbPredict b (btbOf b log) pc .idirect)) ∨
    (lastAfter b pc (rowNow b pc log) log = some (btbPredict b (btbOf b log) pc .idirect)) ∨
    (lastTarget b pc log = some (btbPredict b (btbOf b log) pc .idirect)) ∨
    btbPredict b (btbOf b log) pc .idirect = pc + 4#32 := by
  have hi : rowNow b pc log = tcIdx b pc ((btbOf b log).bht (bhtIdx b pc)) := by rw [bht_hist]; rfl
  rw [predict_idirect b _ pc _ hi]
  have hp := pre_says b pc (rowNow b pc log) log
  have ht := tc_says b pc (rowNow b pc log) log
  have hm := btb_says b pc log
  rcases h1 : look b.tcWays ((btbOf b log).tcPre (rowNow b pc log)) (tcTag b pc) with _ | e <;>
    rcases h2 : look b.tcWays ((btbOf b log).tc (rowNow b pc log)) (tcTag b pc) with _ | f <;>
    rw [h1] at hp <;> rw [h2] at ht
  · dsimp only
    cases b.idirFallback
    · exact Or.inr (Or.inr (Or.inr rfl))
    · rcases h3 : look b.ways ((btbOf b log).btb (btbIdx b pc)) (btbTag b pc) with _ | g
      · exact Or.inr (Or.inr (Or.inr rfl))
      · rw [h3] at hm
        refine Or.inr (Or.inr (Or.inl ?_))
        rcases hm with hm | hm
        · cases hm
        · rw [← hm]; rfl
  · dsimp only
    rcases ht with ht | ht
    · cases ht
    · exact Or.inr (Or.inl ht.symm)
  · dsimp only
    rcases hp with hp | hp
    · cases hp
    · exact Or.inl hp.symm
  · dsimp only
    rcases ht with ht | ht
    · cases ht
    rcases hp with hp | hp
    · cases hp
    split
    · exact Or.inl hp.symm
    · exact Or.inr (Or.inl ht.symm)

/-- The last indirect jump of a bank is predicted to its target, unless the history it made was followed by another target
before. -/
theorem idirect_learn {b : BCfg} (hn : 0 < b.tcWays) (log : BLog) (u : BUpd) (hd : u.dir = true) (hty : u.ty = .idirect)
    (hb : lastBefore b u.pc (rowNow b u.pc (u :: log)) (u :: log) = none ∨
      lastBefore b u.pc (rowNow b u.pc (u :: log)) (u :: log) = some u.target) :
    btbPredict b (btbOf b (u :: log)) u.pc .idirect = u.target := by
  have hh : (btbUpdate b (btbOf b log) u).bht (bhtIdx b u.pc) = histOf b (bhtIdx b u.pc) (u :: log) := bht_hist b _ (u :: log)
  have hi : rowNow b u.pc (u :: log) = tcIdx b u.pc ((btbOf b (u :: log)).bht (bhtIdx b u.pc)) := by rw [bht_hist]; rfl
  rw [predict_idirect b _ u.pc _ hi]
  have hp := pre_says b u.pc (rowNow b u.pc (u :: log)) (u :: log)
  have ht : look b.tcWays ((btbOf b (u :: log)).tc (rowNow b u.pc (u :: log))) (tcTag b u.pc) =
      some (targetWrite b.tcWays ((btbOf b log).tc (rowNow b u.pc (u :: log))) (tcTag b u.pc) u.target b.tcInit).2 := by
    show look b.tcWays ((btbUpdate b (btbOf b log) u).tc (rowNow b u.pc (u :: log))) (tcTag b u.pc) = _
    rw [btb_tc', if_pos ⟨hd, hty, by rw [hh]; rfl⟩]
    exact look_put_self ((uniq_of b log).tc _) (btbVictim_lt hn _) _ _ rfl rfl
  rw [ht]
  rcases h1 : look b.tcWays ((btbOf b (u :: log)).tcPre (rowNow b u.pc (u :: log))) (tcTag b u.pc) with _ | e
  · rfl
  · rw [h1] at hp
    have he : e.pay = u.target := by
      rcases hp with hp | hp
      · cases hp
      · rcases hb with hb | hb
        · rw [hb] at hp; cases hp
        · rw [hb] at hp; simpa using hp
    dsimp only
    rw [he]
    split <;> rfl

end Verif.BpuTab

import Verif.Proofs.Tage
/-
Lemmas about the direction predictor: counters in range, what a training touches, the loop table, ageing.
-/
namespace Verif.Proofs.Tage
open Verif.Bpu (W32)
open Verif.Tage Verif.Spec.Tage

theorem satInc_le {m v : Nat} : satInc m v ≤ m := by unfold satInc; split <;> omega
theorem satDec_le {m v : Nat} (h : v ≤ m) : satDec v ≤ m := by unfold satDec; split <;> omega
theorem bump_le {m v : Nat} (d : Bool) (h : v ≤ m) : bump m d v ≤ m := by
  unfold bump; split
  · exact satInc_le
  · exact satDec_le h

theorem provUseful_le {e : Ent} {u : Upd} (h : e.useful ≤ 3) : (provUseful e u).getD e.useful ≤ 3 := by
  unfold provUseful
  dsimp only
  split
  · exact bump_le _ h
  · split
    · exact bump_le _ h
    · split
      · exact satDec_le h
      · exact h

theorem newRow_le {rows : Nat → Ent} {u : Upd} {rand i : Nat} (h1 : (rows i).cnt ≤ 7) (h2 : (rows i).useful ≤ 3) :
    (newRow rows u rand i).cnt ≤ 7 ∧ (newRow rows u rand i).useful ≤ 3 := by
  unfold newRow
  dsimp only
  split
  · constructor
    · dsimp only; split <;> omega
    · exact Nat.zero_le _
  · split
    · exact ⟨bump_le _ h1, provUseful_le h2⟩
    · split
      · exact ⟨h1, satDec_le h2⟩
      · exact ⟨h1, h2⟩

theorem range_init {c : Cfg} (hc : Cfg.Sized c) : InRange c (init c) where
  base := fun _ => Nat.zero_le _
  cnt := fun _ _ => Nat.zero_le _
  useful := fun _ _ => Nat.zero_le _
  sc := fun _ => show 1 ≤ 3 by decide
  scl := fun _ _ => hc.scl
  theta := hc.theta
  alt := hc.alt
  iter := fun _ => ⟨Nat.zero_le _, Nat.zero_le _⟩
  conf := fun _ => Nat.zero_le _
  dir := fun _ h => absurd (show false = true from h) (by decide)

theorem loopNext_dir (c : Cfg) (e : LoopE) (tag : Nat) (dir : Bool) (h : e.valid = true → e.dir = true) :
    (loopNext c e tag dir).valid = true ∧ (loopNext c e tag dir).dir = true ∧ (loopNext c e tag dir).tag = tag := by
  unfold loopNext
  dsimp only
  by_cases hv : (!e.valid || e.tag != tag) = true
  · rw [if_pos hv]
    dsimp only
    split
    · exact ⟨rfl, rfl, rfl⟩
    · split <;> exact ⟨rfl, rfl, rfl⟩
  · rw [if_neg hv]
    have hv' : e.valid = true ∧ e.tag = tag := by
      cases he : e.valid
      · rw [he] at hv; exact absurd rfl hv
      · rw [he] at hv
        refine ⟨rfl, ?_⟩
        by_cases ht : e.tag = tag
        · exact ht
        · exact absurd (by simp [ht]) hv
    split
    · exact ⟨hv'.1, h hv'.1, hv'.2⟩
    · split <;> exact ⟨hv'.1, h hv'.1, hv'.2⟩

theorem loopNext_le {c : Cfg} {e : LoopE} {tag : Nat} {dir : Bool} (h1 : e.count ≤ c.iterMax) (h2 : e.limit ≤ c.iterMax)
    (h3 : e.conf ≤ c.confMax) :
    (loopNext c e tag dir).count ≤ c.iterMax ∧ (loopNext c e tag dir).limit ≤ c.iterMax ∧
      (loopNext c e tag dir).conf ≤ c.confMax := by
  have key : ∀ e : LoopE, e.count ≤ c.iterMax → e.limit ≤ c.iterMax → e.conf ≤ c.confMax →
      let r := if dir == e.dir then { e with count := satInc c.iterMax e.count }
        else if decide (e.limit ≠ 0) && e.count == e.limit then { e with conf := satInc c.confMax e.conf, count := 0 }
        else { e with conf := satDec e.conf, limit := e.count, count := 0 }
      r.count ≤ c.iterMax ∧ r.limit ≤ c.iterMax ∧ r.conf ≤ c.confMax := by
    intro e h1 h2 h3
    dsimp only
    split
    · exact ⟨satInc_le, h2, h3⟩
    · split
      · exact ⟨Nat.zero_le _, h2, satInc_le⟩
      · exact ⟨Nat.zero_le _, h1, satDec_le h3⟩
  unfold loopNext
  dsimp only
  by_cases hv : (!e.valid || e.tag != tag) = true
  · rw [if_pos hv]
    exact key ⟨true, tag, 0, 0, 0, true⟩ (Nat.zero_le _) (Nat.zero_le _) (Nat.zero_le _)
  · rw [if_neg hv]
    exact key e h1 h2 h3

theorem range_update {c : Cfg} {s : St} (hr : InRange c s) (u : Upd) : InRange c (update c s u) where
  base := fun b => by
    unfold update; dsimp only; split
    · exact bump_le _ (hr.base b)
    · exact hr.base b
  cnt := fun i r => by
    rw [(tn_tag_cnt c s u i r).2]
    split
    · exact (newRow_le (rows := urow c s u) (hr.cnt i _) (hr.useful i _)).1
    · exact hr.cnt i r
  useful := fun i r => by
    unfold update; dsimp only
    have he : (if i < 4 ∧ r = u.m.idx i % 2 ^ c.idxBits then newRow (urow c s u) u (lsfrRand (lsfrNext s.lsfr)) i
        else s.tn i r).useful ≤ 3 := by
      split
      · exact (newRow_le (rows := urow c s u) (hr.cnt i _) (hr.useful i _)).2
      · exact hr.useful i r
    split
    · split
      · exact he
      · split
        · dsimp only; split <;> omega
        · exact he
    · exact he
  sc := fun x => by
    unfold update; dsimp only; split
    · unfold scNext; dsimp only; split
      · exact bump_le _ (hr.sc x)
      · exact hr.sc x
    · exact hr.sc x
  scl := fun t x => by
    unfold update; dsimp only; split
    · exact bump_le _ (hr.scl t x)
    · exact hr.scl t x
  theta := by
    have := hr.theta
    show c.thetaMin ≤ thetaNext c s u ∧ thetaNext c s u ≤ c.thetaMax
    unfold thetaNext; dsimp only
    split
    · exact this
    · split
      · split
        · omega
        · exact this
      · split
        · split
          · omega
          · exact this
        · exact this
  alt := by
    unfold update; dsimp only; split
    · unfold useAltNext; dsimp only; split
      · split
        · exact satDec_le hr.alt
        · exact satInc_le
      · exact hr.alt
    · exact hr.alt
  iter := fun x => by
    unfold update; dsimp only; split
    · have h := hr.iter u.m.loopIdx
      have := loopNext_le (c := c) (tag := u.m.loopTag % 2 ^ c.loopTagBits) (dir := u.dir) h.1 h.2 (hr.conf u.m.loopIdx)
      exact ⟨this.1, this.2.1⟩
    · exact hr.iter x
  conf := fun x => by
    unfold update; dsimp only; split
    · have h := hr.iter u.m.loopIdx
      exact (loopNext_le h.1 h.2 (hr.conf u.m.loopIdx)).2.2
    · exact hr.conf x
  dir := fun x => by
    unfold update; dsimp only; split
    · intro _; exact (loopNext_dir c _ _ _ (hr.dir u.m.loopIdx)).2.1
    · exact hr.dir x

theorem range_train {c : Cfg} (us : List Upd) : ∀ {s : St}, InRange c s → InRange c (train c s us) := by
  induction us with
  | nil => exact fun h => h
  | cons u us ih => exact fun h => ih (range_update h u)

theorem range_step {c : Cfg} {k : Key} {s : St} (hr : InRange c s) (e : Ev) : InRange c (step c k s e) := by
  cases e <;> exact range_update hr _

theorem range_run {c : Cfg} {k : Key} (es : List Ev) : ∀ {s : St}, InRange c s → InRange c (run c k s es) := by
  induction es with
  | nil => exact fun h => h
  | cons e es ih => exact fun h => ih (range_step h e)

/-! ### Convergence over runs -/

theorem run_cons (c : Cfg) (k : Key) (s : St) (e : Ev) (es : List Ev) : run c k s (e :: es) = run c k (step c k s e) es := rfl

theorem outcomes_own (d : Bool) (es : List Ev) : outcomes (.own d :: es) = d :: outcomes es := rfl
theorem outcomes_other (u : Upd) (es : List Ev) : outcomes (.other u :: es) = outcomes es := rfl

theorem converge {c : Cfg} (hc : Cfg.Ok c) {k : Key} {d : Bool} (es : List Ev) :
    ∀ {s : St}, InRange c s → (∀ u, Ev.other u ∈ es → Apart c k u) → (∀ x ∈ outcomes es, x = d) →
      (Settled c s k d ∨ work c s k d ≤ (outcomes es).length) → Settled c (run c k s es) k d := by
  induction es with
  | nil =>
    intro s hr _ _ h
    rcases h with h | h
    · exact h
    · show Settled c s k d
      have hw : work c s k d = 0 := by
        have : (outcomes ([] : List Ev)).length = 0 := rfl
        omega
      unfold work at hw
      unfold Settled
      split
      · rename_i hp; rw [if_pos hp] at hw; omega
      · rename_i hp; rw [if_neg hp] at hw; omega
  | cons e es ih =>
    intro s hr hap hout h
    rw [run_cons]
    cases e with
    | other u =>
      have ha := hap u (by simp)
      obtain ⟨h1, h2⟩ := apart_settled (s := s) (d := d) ha
      refine ih (range_update hr u) (fun v hv => hap v (by simp [hv])) hout ?_
      rcases h with h | h
      · left; exact h1.mpr h
      · right; rw [outcomes_other] at h; show work c (update c s u) k d ≤ _; rw [h2]; exact h
    | own x =>
      have hx : x = d := hout x (by rw [outcomes_own]; simp)
      subst hx
      refine ih (range_update hr _) (fun v hv => hap v (by simp [hv])) (fun y hy => hout y (by rw [outcomes_own]; simp [hy])) ?_
      rcases h with h | h
      · left; exact own_settled hc hr h
      · by_cases hs : Settled c s k x
        · left; exact own_settled hc hr hs
        · right
          have := own_work hr hs
          rw [outcomes_own, List.length_cons] at h
          show work c (update c s (own c s k x)) k x ≤ _
          omega

/-! ### The loop table -/

theorem loopNext_fold {c : Cfg} {pc : W32} (us : List Upd) : ∀ {s : St}, LoopAlone c pc us →
    (train c s us).loop (loopIdx c pc) =
      (loopOutcomes c pc us).foldl (fun e d => loopNext c e (loopTag c pc) d) (s.loop (loopIdx c pc)) := by
  induction us with
  | nil => intro s _; rfl
  | cons u us ih =>
    intro s h
    show (train c (update c s u) us).loop _ = _
    rw [ih (fun v hv => h v (by simp [hv]))]
    have hu := h u (by simp)
    by_cases hf : ForLoop c pc u
    · have hl : loopOutcomes c pc (u :: us) = u.dir :: loopOutcomes c pc us := by
        unfold loopOutcomes; rw [List.filter_cons_of_pos (by simp [hf])]; rfl
      rw [hl, List.foldl_cons]
      congr 1
      unfold update; dsimp only
      rw [hf.1, hf.2]
      unfold loopIdx loopTag
      rw [low_mod, low_mod, if_pos rfl]
    · have hl : loopOutcomes c pc (u :: us) = loopOutcomes c pc us := by
        unfold loopOutcomes; rw [List.filter_cons_of_neg (by simp [hf])]
      rw [hl]
      congr 1
      unfold update; dsimp only
      rw [if_neg]
      rcases hu with hu | hu
      · exact absurd hu hf
      · exact fun x => hu x.symm

/-- A valid entry of the right branch. -/
def Mine (e : LoopE) (t : Nat) : Prop := e.valid = true ∧ e.dir = true ∧ e.tag = t

theorem mine_step {c : Cfg} {e : LoopE} {t : Nat} (h : Mine e t) (d : Bool) :
    loopNext c e t d = if d then { e with count := satInc c.iterMax e.count }
      else if e.limit ≠ 0 ∧ e.count = e.limit then { e with conf := satInc c.confMax e.conf, count := 0 }
      else { e with conf := satDec e.conf, limit := e.count, count := 0 } := by
  obtain ⟨h1, h2, h3⟩ := h
  unfold loopNext
  dsimp only
  have hv : ¬ (!e.valid || e.tag != t) = true := by simp [h1, h3]
  simp only [if_neg hv, h2]
  cases d
  · simp
  · simp

theorem mine_next {c : Cfg} {e : LoopE} {t : Nat} (h : e.valid = true → e.dir = true) (d : Bool) : Mine (loopNext c e t d) t :=
  loopNext_dir c e t d h

/-- `n` taken executions count up. -/
theorem taken_fold {c : Cfg} {t : Nat} (n : Nat) : ∀ {e : LoopE}, Mine e t → e.count + n ≤ c.iterMax →
    (List.replicate n true).foldl (fun e d => loopNext c e t d) e = { e with count := e.count + n } := by
  induction n with
  | zero => intro e _ _; rfl
  | succ n ih =>
    intro e h hn
    rw [List.replicate_succ, List.foldl_cons, mine_step h, if_pos rfl]
    have hs : satInc c.iterMax e.count = e.count + 1 := by unfold satInc; rw [if_neg (by omega)]
    rw [hs, ih (e := { e with count := e.count + 1 }) h (by dsimp only; omega)]
    dsimp only
    rw [show e.count + 1 + n = e.count + (n + 1) by omega]

/-- One complete execution of the loop. -/
theorem trip_fold {c : Cfg} {t n : Nat} {e : LoopE} (hm : Mine e t) (h0 : e.count = 0) (hn : n ≤ c.iterMax) :
    (List.replicate n true ++ [false]).foldl (fun e d => loopNext c e t d) e =
      if e.limit ≠ 0 ∧ n = e.limit then { e with conf := satInc c.confMax e.conf, count := 0 }
      else { e with conf := satDec e.conf, limit := n, count := 0 } := by
  rw [List.foldl_append, taken_fold n hm (by omega), h0, Nat.zero_add]
  rw [List.foldl_cons, List.foldl_nil, mine_step (e := { e with count := n }) hm, if_neg (by decide)]

theorem trips_succ (n m : Nat) : trips n (m + 1) = (List.replicate n true ++ [false]) ++ trips n m := by
  unfold trips; rw [List.replicate_succ, List.flatten_cons]

/-- Complete executions from an entry that already knows the trip count. -/
theorem trips_known {c : Cfg} {t n : Nat} (hn : n ≠ 0) (hmax : n ≤ c.iterMax) (m : Nat) : ∀ {e : LoopE}, Mine e t →
    e.count = 0 → e.limit = n → e.conf ≤ c.confMax →
    let e' := (trips n m).foldl (fun e d => loopNext c e t d) e
    Mine e' t ∧ e'.count = 0 ∧ e'.limit = n ∧ min c.confMax (e.conf + m) ≤ e'.conf := by
  induction m with
  | zero => intro e h1 h2 h3 h4; refine ⟨h1, h2, h3, ?_⟩; show min c.confMax (e.conf + 0) ≤ e.conf; omega
  | succ m ih =>
    intro e h1 h2 h3 h4
    dsimp only
    rw [trips_succ, List.foldl_append, trip_fold h1 h2 hmax, if_pos ⟨by omega, h3.symm⟩]
    have := ih (e := { e with conf := satInc c.confMax e.conf, count := 0 }) h1 rfl h3 satInc_le
    dsimp only at this
    refine ⟨this.1, this.2.1, this.2.2.1, ?_⟩
    have h5 := this.2.2.2
    have h6 : min c.confMax (e.conf + 1) ≤ satInc c.confMax e.conf := by unfold satInc; split <;> omega
    omega

/-- Entries after anything ended with the loop's exit. -/
theorem exit_zero {c : Cfg} {t : Nat} {e : LoopE} (h : e.valid = true → e.dir = true) :
    Mine (loopNext c e t false) t ∧ (loopNext c e t false).count = 0 := by
  refine ⟨mine_next h false, ?_⟩
  unfold loopNext
  dsimp only
  by_cases hv : (!e.valid || e.tag != t) = true
  · rw [if_pos hv]; rfl
  · rw [if_neg hv]
    have hv' : e.valid = true := by
      cases he : e.valid
      · rw [he] at hv; exact absurd rfl hv
      · rfl
    rw [h hv', if_neg (by decide)]
    split <;> rfl

theorem fold_dir {c : Cfg} {t : Nat} (ds : List Bool) : ∀ {e : LoopE}, (e.valid = true → e.dir = true) →
    let e' := ds.foldl (fun e d => loopNext c e t d) e
    (e'.valid = true → e'.dir = true) := by
  induction ds with
  | nil => exact fun h => h
  | cons d ds ih => intro e h; exact ih (fun _ => (mine_next h d).2.1)

theorem fold_conf {c : Cfg} {t : Nat} (ds : List Bool) : ∀ {e : LoopE}, e.count ≤ c.iterMax → e.limit ≤ c.iterMax →
    e.conf ≤ c.confMax → (ds.foldl (fun e d => loopNext c e t d) e).conf ≤ c.confMax := by
  induction ds with
  | nil => exact fun _ _ h => h
  | cons d ds ih =>
    intro e h1 h2 h3
    have := loopNext_le (c := c) (tag := t) (dir := d) h1 h2 h3
    exact ih this.1 this.2.1 this.2.2

/-- The entry after any history ending in `m + 2` complete executions and `j` more taken branches. -/
theorem loop_learned {c : Cfg} {t n m j : Nat} {e : LoopE} {pre : List Bool} (hd : e.valid = true → e.dir = true)
    (h1 : e.count ≤ c.iterMax) (h2 : e.limit ≤ c.iterMax) (h3 : e.conf ≤ c.confMax) (hn : n ≠ 0) (hmax : n ≤ c.iterMax)
    (hj : j ≤ n) :
    let e' := (pre ++ trips n (m + 2) ++ List.replicate j true).foldl (fun e d => loopNext c e t d) e
    Mine e' t ∧ e'.count = j ∧ e'.limit = n ∧ min c.confMax m ≤ e'.conf := by
  dsimp only
  rw [List.foldl_append, List.foldl_append, show m + 2 = (m + 1) + 1 from rfl, trips_succ, List.foldl_append]
  rw [List.foldl_append, List.foldl_cons, List.foldl_nil]
  have hds : (List.replicate n true).foldl (fun e d => loopNext c e t d) (pre.foldl (fun e d => loopNext c e t d) e) =
      (pre ++ List.replicate n true).foldl (fun e d => loopNext c e t d) e := List.foldl_append.symm
  rw [hds]
  generalize hpre : pre ++ List.replicate n true = ds
  have hA := fold_dir (c := c) (t := t) ds hd
  dsimp only at hA
  obtain ⟨hB, hB0⟩ := exit_zero (c := c) (t := t) hA
  have hBc : (loopNext c (ds.foldl (fun e d => loopNext c e t d) e) t false).conf ≤ c.confMax := by
    have := fold_conf (c := c) (t := t) (ds ++ [false]) h1 h2 h3
    rw [List.foldl_append] at this
    exact this
  generalize loopNext c (ds.foldl (fun e d => loopNext c e t d) e) t false = b at hB hB0 hBc ⊢
  rw [trips_succ, List.foldl_append, trip_fold hB hB0 hmax]
  have hC : ∃ b' : LoopE, (if b.limit ≠ 0 ∧ n = b.limit then { b with conf := satInc c.confMax b.conf, count := 0 }
      else { b with conf := satDec b.conf, limit := n, count := 0 }) = b' ∧ Mine b' t ∧ b'.count = 0 ∧ b'.limit = n ∧
        b'.conf ≤ c.confMax := by
    refine ⟨_, rfl, ?_⟩
    split
    · rename_i hh; exact ⟨hB, rfl, hh.2.symm, satInc_le⟩
    · exact ⟨hB, rfl, rfl, satDec_le hBc⟩
  obtain ⟨b', hb', hm', h0', hl', hc'⟩ := hC
  rw [hb']
  have hK := trips_known (c := c) hn hmax m hm' h0' hl' hc'
  dsimp only at hK
  obtain ⟨k1, k2, k3, k4⟩ := hK
  rw [taken_fold j k1 (by omega)]
  refine ⟨k1, ?_, k3, ?_⟩
  · dsimp only; omega
  · dsimp only; omega

end Verif.Proofs.Tage

import Verif.Proofs.TageAge
/-
C101-C104: the direction predictor.
-/
namespace Verif.Props
open Verif.Bpu (W32)
open Verif.Tage Verif.Spec.Tage Verif.Proofs.Tage

theorem tage_cfg0_ok : Cfg.Ok cfg0 := ⟨by decide, by decide, by decide, by decide⟩
theorem tage_cfg0_sized : Cfg.Sized cfg0 := ⟨by decide, by decide, by decide⟩

/-! ### C101: who decides -/

/-- The provider of every answer is the table with the longest history whose row carries the branch's tag; without one, the base
table. -/
theorem C101_provider (c : Cfg) (s : St) (k : Key) :
    Longest c s k (predict c s k).pcpn ∨ (Unknown c s k ∧ (predict c s k).pcpn = 4) := by
  rw [pcpn_eq]
  rcases highest_spec (hitB c s k) 4 (by decide) with ⟨h1, h2, h3⟩ | ⟨h1, h2⟩
  · left
    refine ⟨(hit_iff c s k _).mpr ⟨h1, h2⟩, fun j hj => ?_⟩
    rw [hit_iff] at hj
    by_cases hlt : prov c s k < j
    · have := h3 j hlt hj.1
      rw [hj.2] at this; exact absurd this (by decide)
    · omega
  · right
    refine ⟨fun j hj => ?_, h1⟩
    rw [hit_iff] at hj
    have := h2 j hj.1
    rw [hj.2] at this; exact absurd this (by decide)

theorem longest_prov {c : Cfg} {s : St} {k : Key} {i : Nat} (h : Longest c s k i) : prov c s k = i := by
  rcases C101_provider c s k with h' | ⟨h', _⟩
  · rw [pcpn_eq] at h'
    have := h.2 _ h'.1
    have := h'.2 _ h.1
    omega
  · exact absurd h.1 (h' i)

theorem unknown_prov {c : Cfg} {s : St} {k : Key} (h : Unknown c s k) : prov c s k = 4 := by
  rcases C101_provider c s k with h' | ⟨_, h'⟩
  · exact absurd h'.1 (h _)
  · rw [pcpn_eq] at h'; exact h'

/-- A provider whose counter is not one of the two middle values decides alone. -/
theorem C101_strong {c : Cfg} (hc : Cfg.Ok c) {s : St} {k : Key} {i : Nat} (h : Longest c s k i)
    (h3 : (row c s k i).cnt ≠ 3) (h4 : (row c s k i).cnt ≠ 4) :
    (predict c s k).pred = decide (4 < (row c s k i).cnt) := by
  have hp := longest_prov h
  have hi : prov c s k < 4 := by rw [hp]; exact h.1.1
  refine predict_strong hc hi ?_
  rw [hp]
  unfold strong
  by_cases hx : 4 < (row c s k i).cnt
  · rw [decide_eq_true hx, if_pos rfl]; omega
  · rw [decide_eq_false hx]; simp only [Bool.false_eq_true, if_false]; omega

/-- A branch no tagged table knows is predicted by its base counter; the correctors and the loop table have no say. -/
theorem C101_base {c : Cfg} {s : St} {k : Key} (h : Unknown c s k) :
    (predict c s k).pred = decide (2 ≤ s.base (baseIdx c k.pc)) := predict_unknown (unknown_prov h)

/-- The alternative answer is that of the next shorter table that knows the branch, or of the base table. -/
theorem C101_alternative {c : Cfg} {s : St} {k : Key} {i : Nat} (h : Longest c s k i) :
    (∃ j, j < i ∧ Hit c s k j ∧ (∀ m, m < i → Hit c s k m → m ≤ j) ∧ (predict c s k).altpcpn = j ∧
      (predict c s k).alt = decide (4 ≤ (row c s k j).cnt)) ∨
    ((∀ m, m < i → ¬ Hit c s k m) ∧ (predict c s k).altpcpn = 4 ∧
      (predict c s k).alt = decide (2 ≤ s.base (baseIdx c k.pc))) := by
  have hp := longest_prov h
  have hi : i < 4 := h.1.1
  have halt : (predict c s k).altpcpn = highest (hitB c s k) i ∧ (predict c s k).alt =
      if 4 ≤ highest (hitB c s k) i then decide (2 ≤ s.base (baseIdx c k.pc))
      else decide (4 ≤ (row c s k (highest (hitB c s k) i)).cnt) := by
    have hp' : highest (fun i => (row c s k i).tag == tagOf c k.pc k.fh i) 4 = i := hp
    unfold predict select
    dsimp only
    rw [hp', if_neg (by omega)]
    exact ⟨rfl, rfl⟩
  rw [halt.1, halt.2]
  rcases highest_spec (hitB c s k) i (by omega) with ⟨h1, h2, h3⟩ | ⟨h1, h2⟩
  · left
    refine ⟨_, h1, (hit_iff c s k _).mpr ⟨by omega, h2⟩, fun m hm hh => ?_, rfl, by rw [if_neg (by omega)]⟩
    rw [hit_iff] at hh
    by_cases hlt : highest (hitB c s k) i < m
    · have := h3 m hlt hm
      rw [hh.2] at this; exact absurd this (by decide)
    · omega
  · right
    refine ⟨fun m hm hh => ?_, h1, by rw [if_pos (by omega)]⟩
    rw [hit_iff] at hh
    have := h2 m hm
    rw [hh.2] at this; exact absurd this (by decide)

/-- When provider and alternative agree and neither the history corrector nor the loop table steps in, that is the answer; and those
two step in only over a provider counter in the weak range. -/
theorem C101_unanimous {c : Cfg} {s : St} {k : Key} {i : Nat} (h : Longest c s k i) :
    (((predict c s k).scUsed || (predict c s k).loopUsed) = true →
      c.weakLow ≤ (row c s k i).cnt ∧ (row c s k i).cnt ≤ c.weakHigh) ∧
    (((predict c s k).scUsed || (predict c s k).loopUsed) = false → decide (4 ≤ (row c s k i).cnt) = (predict c s k).alt →
      (predict c s k).pred = (predict c s k).alt) := by
  have hp := longest_prov h
  have hi : i < 4 := h.1.1
  have hp' : highest (fun i => (row c s k i).tag == tagOf c k.pc k.fh i) 4 = i := hp
  have hpc := pcpn_eq c s k
  constructor
  · intro hu
    unfold predict at hpc hu
    dsimp only at hpc hu
    rw [hpc, hp] at hu
    have hw : weak c.weakLow c.weakHigh (row c s k i).cnt = true := by
      cases hw : weak c.weakLow c.weakHigh (row c s k i).cnt with
      | true => rfl
      | false => rw [hw] at hu; simp at hu
    unfold weak at hw
    rw [Bool.and_eq_true, decide_eq_true_eq, decide_eq_true_eq] at hw
    exact hw
  · intro hu hag
    rw [Bool.or_eq_false_iff] at hu
    have hpred : (predict c s k).pred =
        (select c (s.base (baseIdx c k.pc)) (row c s k) (tagOf c k.pc k.fh) (s.sc (scIdx c k.pc)) s.useAlt).1 := by
      obtain ⟨hu1, hu2⟩ := hu
      unfold predict at hu1 hu2 ⊢
      dsimp only at hu1 hu2 ⊢
      rw [hu2, hu1]
      rfl
    have halt : (predict c s k).alt =
        (select c (s.base (baseIdx c k.pc)) (row c s k) (tagOf c k.pc k.fh) (s.sc (scIdx c k.pc)) s.useAlt).2.1 := rfl
    rw [hpred, halt]
    rw [halt] at hag
    unfold select at hag ⊢
    dsimp only at hag ⊢
    rw [hp', if_neg (by omega)] at hag ⊢
    dsimp only at hag ⊢
    rw [← hag]
    simp

section Examples
/-- A branch of the examples: address 0x80000010, empty history. -/
def tageKey : Key := ⟨0x80000010#32, fun _ _ => 0#32, fun _ => false, 0#32⟩

/-- The same branch after some history. -/
def tageKey2 : Key := ⟨0x80000010#32, fun k i => BitVec.ofNat 32 (k + 3 * i + 1), fun _ => true, 5#32⟩

/-- After reset no table knows it, and it is predicted not taken. -/
example : (predict cfg0 (init cfg0) tageKey).pcpn = 4 ∧ (predict cfg0 (init cfg0) tageKey).pred = false := by decide +kernel

/-- Two trainings as taken: the first allocates in table 0, which then provides. -/
example : (predict cfg0 (run cfg0 tageKey (init cfg0) [.own true, .own true]) tageKey).pcpn = 0 ∧
    (row cfg0 (run cfg0 tageKey (init cfg0) [.own true, .own true]) tageKey 0).cnt = 5 ∧
    (predict cfg0 (run cfg0 tageKey (init cfg0) [.own true, .own true]) tageKey).pred = true := by decide +kernel

/-- There is no valid bit: after reset a branch whose tag is zero is "known" to the longest table, as never taken. -/
example : Hit cfg0 (init cfg0) ⟨0x80000000#32, fun _ _ => 0#32, fun _ => false, 0#32⟩ 3 := by
  refine ⟨by decide, ?_⟩; decide +kernel
end Examples

/-! ### C102: what training does to the tables -/

/-- Whatever was trained, with whatever came back from the pipeline, every counter stays within the bits it is stored in. -/
theorem C102_range {c : Cfg} (hc : Cfg.Sized c) (us : List Upd) : InRange c (train c (init c) us) := range_train us (range_init hc)

/-- Every row number an answer is read from, and every one that is handed back for training, lies inside its table. -/
theorem C102_rows (c : Cfg) (s : St) (k : Key) :
    baseIdx c k.pc < 2 ^ c.baseBits ∧ scIdx c k.pc < 2 ^ c.scBits ∧ (predict c s k).loopIdx < 2 ^ c.loopBits ∧
    (∀ i, (predict c s k).idx i < 2 ^ c.idxBits ∧ (predict c s k).tag i < 2 ^ c.tagBits) ∧
    (∀ t, (predict c s k).scIdx t < 2 ^ c.sclBits) :=
  ⟨low_lt _ _, low_lt _ _, low_lt _ _, fun _ => ⟨low_lt _ _, low_lt _ _⟩, fun _ => low_lt _ _⟩

/-- An entry is replaced only after a wrong prediction, only in a table with longer history than the provider's, only where the old
entry was not useful; the new one has the branch's tag, points weakly the way the branch went, and at most one is made. -/
theorem C102_allocation {c : Cfg} {s : St} {u : Upd} {i r : Nat} (h : ((update c s u).tn i r).tag ≠ (s.tn i r).tag) :
    u.m.pred ≠ u.dir ∧ i < 4 ∧ (u.m.pcpn = 4 ∨ u.m.pcpn < i) ∧ r = u.m.idx i % 2 ^ c.idxBits ∧ (s.tn i r).useful = 0 ∧
    (update c s u).tn i r = ⟨u.m.tag i, if u.dir then 4 else 3, 0⟩ ∧
    ∀ j q, ((update c s u).tn j q).tag ≠ (s.tn j q).tag → j = i ∧ q = r := by
  obtain ⟨h1, h2⟩ := tag_change h
  obtain ⟨ha, hb, hs, hu⟩ := allocTab_some h2
  rw [mayAlloc_iff] at ha
  refine ⟨ha.1, hb, ?_, h1, ?_, ?_, ?_⟩
  · unfold allocStart at hs
    split at hs
    · left; assumption
    · right; omega
  · unfold urow at hu; rw [h1]; exact hu
  · rw [h1]; exact alloc_row h2
  · intro j q hq
    obtain ⟨g1, g2⟩ := tag_change hq
    rw [h2] at g2
    have : i = j := Option.some.inj g2
    subst this
    exact ⟨rfl, by rw [g1, h1]⟩

/-- Conversely, after a wrong prediction, if some longer table has an entry to spare, a longer table knows the branch next time. -/
theorem C102_allocates {c : Cfg} {s : St} {k : Key} {d : Bool} {i : Nat} (hw : (predict c s k).pred ≠ d) (hi : i < 4)
    (hl : (predict c s k).pcpn = 4 ∨ (predict c s k).pcpn < i) (hu : (row c s k i).useful = 0) :
    ∃ j, Longest c (step c k s (.own d)) k j ∧ ((predict c s k).pcpn = 4 ∨ (predict c s k).pcpn < j) ∧
      (row c (step c k s (.own d)) k j).cnt = if d then 4 else 3 := by
  have hm : mayAlloc (own c s k d) = true := by
    rw [mayAlloc_iff]; exact ⟨hw, by rcases hl with h | h; exact .inr h; left; show (predict c s k).pcpn ≤ 2; omega⟩
  have hst : allocStart (own c s k d) ≤ i := by
    unfold allocStart
    split
    · omega
    · rename_i hne
      rcases hl with h | h
      · exact absurd h hne
      · exact h
  obtain ⟨j, hj⟩ := allocTab_isSome (rows := row c s k) (rand := lsfrRand (lsfrNext s.lsfr)) hm hi hst hu
  obtain ⟨h4, hgt, hp, hcnt⟩ := own_alloc hj
  refine ⟨j, ?_, by rw [pcpn_eq]; exact hgt, hcnt⟩
  rcases C101_provider c (step c k s (.own d)) k with h | ⟨_, h⟩
  · rw [pcpn_eq] at h; rw [show prov c (step c k s (.own d)) k = j from hp] at h; exact h
  · rw [pcpn_eq] at h; rw [show prov c (step c k s (.own d)) k = j from hp] at h; omega

/-- A training changes no other branch: the tag and counter of a row it does not address, and the base counters of other addresses,
stay as they are. -/
theorem C102_local {c : Cfg} {s : St} {u : Upd} :
    (∀ i r, r ≠ u.m.idx i % 2 ^ c.idxBits →
      ((update c s u).tn i r).tag = (s.tn i r).tag ∧ ((update c s u).tn i r).cnt = (s.tn i r).cnt) ∧
    (∀ b, b ≠ baseIdx c u.pc → (update c s u).base b = s.base b) := by
  constructor
  · intro i r hr
    have h := tn_tag_cnt c s u i r
    rw [if_neg (fun x => hr x.2)] at h
    exact h
  · intro b hb
    show (if b = baseIdx c u.pc ∧ 4 ≤ u.m.pcpn then _ else _) = _
    rw [if_neg (fun x => hb x.1)]

/-- No entry is protected for ever: after 2^24 trainings that do not address it, an entry is free to be replaced. -/
theorem C102_ages {c : Cfg} (hc : Cfg.Sized c) (hb : c.idxBits ≤ 12) {before us : List Upd} {i r : Nat} (hi : i < 4)
    (hr : r < 2 ^ c.idxBits) (hlen : 2 ^ 24 ≤ us.length) (hus : ∀ u ∈ us, u.m.idx i % 2 ^ c.idxBits ≠ r) :
    ((train c (train c (init c) before) us).tn i r).useful = 0 := by
  have h3 := (C102_range hc before).useful i r
  have h1 := age_phase hb hi hr true hlen hus h3
  have h2 := age_phase hb hi hr false hlen hus h3
  simp only [if_true] at h1
  simp only [Bool.false_eq_true, if_false] at h2
  omega

theorem lsfr_train (c : Cfg) (us : List Upd) : ∀ s : St, (train c s us).lsfr = (List.range us.length).foldl (fun l _ => lsfrNext l) s.lsfr := by
  induction us with
  | nil => intro s; rfl
  | cons u us ih =>
    intro s
    show (train c (update c s u) us).lsfr = _
    rw [ih, List.length_cons, List.range_succ_eq_map, List.foldl_cons, List.foldl_map]
    rfl

/-- The generator's state after `n` trainings. -/
def lsfrAt (n : Nat) : Bool × Bool × Bool × Bool := (List.range n).foldl (fun l _ => lsfrNext l) (false, false, false, true)

theorem lsfrAt_succ (n : Nat) : lsfrAt (n + 1) = lsfrNext (lsfrAt n) := by
  unfold lsfrAt; rw [List.range_succ, List.foldl_append]; rfl

theorem lsfr_fifteen : ∀ l, lsfrNext (lsfrNext (lsfrNext (lsfrNext (lsfrNext (lsfrNext (lsfrNext (lsfrNext (lsfrNext
    (lsfrNext (lsfrNext (lsfrNext (lsfrNext (lsfrNext (lsfrNext l)))))))))))))) = l := by
  rintro ⟨a, b, c, d⟩
  cases a <;> cases b <;> cases c <;> cases d <;> rfl

theorem lsfrAt_period (n : Nat) : lsfrAt (n + 15) = lsfrAt n := by
  simp only [show n + 15 = n + 1 + 1 + 1 + 1 + 1 + 1 + 1 + 1 + 1 + 1 + 1 + 1 + 1 + 1 + 1 from rfl, lsfrAt_succ]
  exact lsfr_fifteen _

theorem lsfrAt_mod (n : Nat) : lsfrAt n = lsfrAt (n % 15) := by
  induction n using Nat.strongRecOn with
  | ind n ih =>
    by_cases h : n < 15
    · rw [Nat.mod_eq_of_lt h]
    · have := ih (n - 15) (by omega)
      rw [show n = n - 15 + 15 by omega, lsfrAt_period, this]
      congr 1; omega

/-- The choice between two free tables is driven by a generator that depends only on how many trainings there were: it never sticks at
zero and repeats after exactly fifteen. -/
theorem C102_random {c : Cfg} (us vs : List Upd) :
    (train c (init c) us).lsfr ≠ (false, false, false, false) ∧
    ((train c (init c) us).lsfr = (train c (init c) vs).lsfr ↔ us.length % 15 = vs.length % 15) := by
  have h : ∀ ws : List Upd, (train c (init c) ws).lsfr = lsfrAt (ws.length % 15) := by
    intro ws; rw [lsfr_train, ← lsfrAt_mod]; rfl
  rw [h us, h vs]
  have key : ∀ a, a < 15 → lsfrAt a ≠ (false, false, false, false) ∧ ∀ b, b < 15 → (lsfrAt a = lsfrAt b ↔ a = b) := by
    decide +kernel
  have ha := key (us.length % 15) (Nat.mod_lt _ (by decide))
  exact ⟨ha.1, ha.2 _ (Nat.mod_lt _ (by decide))⟩

section Examples
/-- A wrong prediction after reset: table 0 gets the entry (the generator's first draw is 2). -/
example : ((step cfg0 tageKey2 (init cfg0) (.own true)).tn 0 (idxOf cfg0 tageKey2.pc tageKey2.fh 0)).tag =
      tagOf cfg0 tageKey2.pc tageKey2.fh 0 ∧
    ((init cfg0).tn 0 (idxOf cfg0 tageKey2.pc tageKey2.fh 0)).tag ≠ tagOf cfg0 tageKey2.pc tageKey2.fh 0 ∧
    (predict cfg0 (init cfg0) tageKey2).pred = false := by decide +kernel
end Examples

/-! ### C103: a branch that always goes the same way is learned -/

/-- Whatever was trained before: a branch that keeps going the same way under the same history is predicted that way after at most
eight executions, and ever after, as long as other branches do not train its rows.  The correctors, the loop table, the
alternative-choice counter and the random choice of tables may do what they like. -/
theorem C103_learns {c : Cfg} (hc : Cfg.Ok c) (hs : Cfg.Sized c) {before : List Upd} {k : Key} {d : Bool} {es : List Ev}
    (hap : ∀ u, Ev.other u ∈ es → Apart c k u) (hd : ∀ x ∈ outcomes es, x = d) (h8 : 8 ≤ (outcomes es).length) :
    (predict c (run c k (train c (init c) before) es) k).pred = d := by
  have hr := range_train (c := c) before (range_init hs)
  refine settled_pred hc (converge hc es hr hap hd (.inr ?_))
  have := work_le hr k d
  omega

section Examples
/-- A branch whose longest entry says strongly taken, and that then never is: the change takes several executions, and is learned. -/
def alwaysTaken : List Ev := List.replicate 4 (.own true) ++ List.replicate 12 (.own false) ++ List.replicate 8 (.own true)

example : (predict cfg0 (run cfg0 tageKey (init cfg0) alwaysTaken) tageKey).pcpn = 3 ∧
    (predict cfg0 (run cfg0 tageKey (init cfg0) (alwaysTaken ++ List.replicate 3 (.own false))) tageKey).pred = true ∧
    (predict cfg0 (run cfg0 tageKey (init cfg0) (alwaysTaken ++ List.replicate 8 (.own false))) tageKey).pred = false := by
  decide +kernel

/-- Another branch whose training is out of the way. -/
example : Apart cfg0 tageKey ⟨0x80000040#32, true, predict cfg0 (init cfg0) { tageKey with pc := 0x80000040#32 }⟩ := by
  refine ⟨?_, .inr ?_⟩
  · decide +kernel
  · decide +kernel
end Examples

/-! ### C104: loops -/

/-- What the loop table says about a loop whose branch is taken `n` times and then falls through, once it has seen `confThr + 2`
complete executions, `j` iterations into the next: taken, except exactly when one more iteration than `j` makes `n`. -/
theorem C104_says {c : Cfg} (hs : Cfg.Sized c) (ht : c.confThr ≤ c.confMax) {pc : W32} {before us : List Upd} {pre : List Bool}
    {n m j : Nat} (hal : LoopAlone c pc us) (hn : n ≠ 0) (hmax : n ≤ c.iterMax) (hm : c.confThr ≤ m) (hj : j ≤ n)
    (hout : loopOutcomes c pc us = pre ++ trips n (m + 2) ++ List.replicate j true) :
    loopSays c ((train c (train c (init c) before) us).loop (loopIdx c pc)) (loopTag c pc) = some (decide (j + 1 ≠ n)) := by
  have hr := range_train (c := c) before (range_init hs)
  rw [loopNext_fold us hal, hout]
  have h := loop_learned (c := c) (t := loopTag c pc) (n := n) (m := m) (j := j) (pre := pre) (hr.dir (loopIdx c pc))
    (hr.iter _).1 (hr.iter _).2 (hr.conf _) hn hmax hj
  dsimp only at h
  generalize (pre ++ trips n (m + 2) ++ List.replicate j true).foldl (fun e d => loopNext c e (loopTag c pc) d)
    ((train c (init c) before).loop (loopIdx c pc)) = e at h
  obtain ⟨⟨h1, h2, h3⟩, h4, h5, h6⟩ := h
  unfold loopSays
  rw [if_pos (by simp [h1, h3]; omega), h2, h4, h5]
  by_cases hx : j + 1 = n
  · simp [hx, hn]
  · simp [hx]

/-- A loop the table knows is not mistaken for another one: a branch that shares the row and has another tag gets no answer. -/
theorem C104_other {c : Cfg} (hs : Cfg.Sized c) {pc q : W32} {before us : List Upd} {pre : List Bool}
    {n m j : Nat} (hal : LoopAlone c pc us) (hn : n ≠ 0) (hmax : n ≤ c.iterMax) (hj : j ≤ n)
    (hout : loopOutcomes c pc us = pre ++ trips n (m + 2) ++ List.replicate j true) (hi : loopIdx c q = loopIdx c pc)
    (ht : loopTag c q ≠ loopTag c pc) :
    loopSays c ((train c (train c (init c) before) us).loop (loopIdx c q)) (loopTag c q) = none := by
  have hr := range_train (c := c) before (range_init hs)
  rw [hi, loopNext_fold us hal, hout]
  have h := loop_learned (c := c) (t := loopTag c pc) (n := n) (m := m) (j := j) (pre := pre) (hr.dir (loopIdx c pc))
    (hr.iter _).1 (hr.iter _).2 (hr.conf _) hn hmax hj
  dsimp only at h
  generalize (pre ++ trips n (m + 2) ++ List.replicate j true).foldl (fun e d => loopNext c e (loopTag c pc) d)
    ((train c (init c) before).loop (loopIdx c pc)) = e at h
  obtain ⟨⟨h1, h2, h3⟩, h4, h5, h6⟩ := h
  unfold loopSays
  rw [if_neg]
  simp [h1, h2, h3, Ne.symm ht]

/-- PARTIAL.  Before the last two executions of each round the loop table is right.  Full property: it is right in every execution
(in particular it foresees the exit). -/
theorem C104_loop_partial {c : Cfg} (hs : Cfg.Sized c) (ht : c.confThr ≤ c.confMax) {pc : W32} {before us : List Upd}
    {pre : List Bool} {n m j : Nat} (hal : LoopAlone c pc us) (hn : n ≠ 0) (hmax : n ≤ c.iterMax) (hm : c.confThr ≤ m)
    (hj : j + 1 < n) (hout : loopOutcomes c pc us = pre ++ trips n (m + 2) ++ List.replicate j true) :
    loopSays c ((train c (train c (init c) before) us).loop (loopIdx c pc)) (loopTag c pc) = some true := by
  rw [C104_says hs ht hal hn hmax hm (by omega) hout, decide_eq_true (by omega)]

/-- In the last two it is always wrong, for every loop: it foretells the exit one execution too early and misses the real one. -/
theorem C104_off_by_one {c : Cfg} (hs : Cfg.Sized c) (ht : c.confThr ≤ c.confMax) {pc : W32} {before us : List Upd}
    {pre : List Bool} {n m j : Nat} (hal : LoopAlone c pc us) (hn : n ≠ 0) (hmax : n ≤ c.iterMax) (hm : c.confThr ≤ m)
    (hj : j = n - 1 ∨ j = n) (hout : loopOutcomes c pc us = pre ++ trips n (m + 2) ++ List.replicate j true) :
    loopSays c ((train c (train c (init c) before) us).loop (loopIdx c pc)) (loopTag c pc) = some (!decide (j < n)) := by
  rw [C104_says hs ht hal hn hmax hm (by omega) hout]
  congr 1
  rcases hj with h | h
  · rw [decide_eq_false (by omega), decide_eq_true (by omega)]; rfl
  · rw [decide_eq_true (by omega), decide_eq_false (by omega)]; rfl

/-- And its word is final whenever the provider's counter is in the weak range. -/
theorem C104_final {c : Cfg} {s : St} {k : Key} {i : Nat} {b : Bool} (h : Longest c s k i)
    (hw : c.weakLow ≤ (row c s k i).cnt ∧ (row c s k i).cnt ≤ c.weakHigh)
    (hl : loopSays c (s.loop (loopIdx c k.pc)) (loopTag c k.pc) = some b) : (predict c s k).pred = b := by
  have hp := longest_prov h
  have hpc := pcpn_eq c s k
  have hw' : weak c.weakLow c.weakHigh (row c s k i).cnt = true := by
    unfold weak; rw [Bool.and_eq_true, decide_eq_true_eq, decide_eq_true_eq]; exact hw
  unfold predict at hpc ⊢
  dsimp only at hpc ⊢
  rw [hpc, hp, hl, hw', decide_eq_true h.1.1]
  rfl

section Examples
/-- A training of the loop branch at 0x80000010 with one outcome. -/
def loopUpd (d : Bool) : Upd := ⟨0x80000010#32, d, predict cfg0 (init cfg0) tageKey⟩

/-- Three iterations, seven complete executions, then one more iteration pending: the hypotheses of the theorems hold. -/
example : LoopAlone cfg0 0x80000010#32 ((trips 3 7 ++ [true, true]).map loopUpd) ∧
    loopOutcomes cfg0 0x80000010#32 ((trips 3 7 ++ [true, true]).map loopUpd) = [] ++ trips 3 (5 + 2) ++ List.replicate 2 true := by
  constructor
  · intro u hu
    left
    obtain ⟨d, _, rfl⟩ := List.mem_map.mp hu
    exact ⟨rfl, rfl⟩
  · decide +kernel

/-- With two of three iterations done the table foretells the exit; at the real exit it says taken. -/
example :
    loopSays cfg0 ((train cfg0 (init cfg0) ((trips 3 7 ++ [true, true]).map loopUpd)).loop (loopIdx cfg0 0x80000010#32))
      (loopTag cfg0 0x80000010#32) = some false ∧
    loopSays cfg0 ((train cfg0 (init cfg0) ((trips 3 7 ++ [true, true, true]).map loopUpd)).loop (loopIdx cfg0 0x80000010#32))
      (loopTag cfg0 0x80000010#32) = some true := by decide +kernel

/-- A branch elsewhere that shares the row. -/
example : loopIdx cfg0 0x80020010#32 = loopIdx cfg0 0x80000010#32 ∧ loopTag cfg0 0x80020010#32 ≠ loopTag cfg0 0x80000010#32 := by
  decide +kernel
end Examples

end Verif.Props

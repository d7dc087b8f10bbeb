import Verif.Proofs.Assoc
import Verif.Spec.BpuTab
/- The type predictor. -/
namespace Verif.BpuTab
open Verif.Bpu (W32 BrType)

variable {P : Type}

/-! ### Writes to a way that is the tag's place -/

theorem at_unique {n w : Nat} {s : Nat → Way P} (u : Unique n s) (e : Way P)
    (hat : ∀ v, v < n → (s v).valid = true → (s v).tag = e.tag → v = w) : Unique n (put s w e) := by
  intro x y hx hy vx vy he
  unfold put at vx vy he
  by_cases hxw : x = w <;> by_cases hyw : y = w
  · rw [hxw, hyw]
  · rw [if_pos hxw] at vx he
    rw [if_neg hyw] at vy he
    exact absurd (hat y hy vy he.symm) hyw
  · rw [if_neg hxw] at vx he
    rw [if_pos hyw] at vy he
    exact absurd (hat x hx vx he) hxw
  · rw [if_neg hxw] at vx he
    rw [if_neg hyw] at vy he
    exact u x y hx hy vx vy he

theorem at_self {n w : Nat} {s : Nat → Way P} (u : Unique n s) (hw : w < n) (e : Way P)
    (hat : ∀ v, v < n → (s v).valid = true → (s v).tag = e.tag → v = w) (he : e.valid = true) :
    look n (put s w e) e.tag = some e :=
  (look_iff (at_unique u e hat)).mpr ⟨w, hw, by simp [put], he, rfl⟩

theorem at_other {n w : Nat} {s : Nat → Way P} (u : Unique n s) (e : Way P) {t : Nat}
    (hne : e.valid = true → t ≠ e.tag) :
    look n (put s w e) t = none ∨ look n (put s w e) t = look n s t := by
  rcases h : hitWay n (put s w e) t with _ | v
  · left; unfold look; rw [h]; rfl
  · right
    obtain ⟨h1, h2, h3⟩ := hitWay_some h
    have hvw : v ≠ w := by
      intro hvw
      unfold put at h2 h3
      rw [if_pos hvw] at h2 h3
      exact hne h2 h3.symm
    unfold look
    rw [h]
    unfold put at h2 h3
    rw [if_neg hvw] at h2 h3
    have := hitWay_unique u h1 h2
    rw [h3] at this
    rw [this]
    simp [put, hvw]

theorem at_keep {n w : Nat} {s : Nat → Way P} (u : Unique n s) (e : Way P) {t : Nat}
    (hat : ∀ v, v < n → (s v).valid = true → (s v).tag = e.tag → v = w)
    (hne : t ≠ e.tag) (hw : (s w).valid = true → (s w).tag = e.tag) :
    look n (put s w e) t = look n s t := by
  rcases h : look n s t with _ | f
  · rcases at_other (n := n) (w := w) u e (fun _ => hne) with h' | h'
    · exact h'
    · rw [h', h]
  · obtain ⟨v, hv, rfl, hval, ht⟩ := (look_iff u).mp h
    have hvw : v ≠ w := fun hvw => by
      rw [hvw] at hval ht
      exact hne (ht.symm.trans (hw hval))
    exact (look_iff (at_unique u e hat)).mpr ⟨v, hv, by simp [put, hvw], hval, ht⟩

/-! ### One set -/

/-- One cycle of updates of one set. -/
def setCycle (tc : TCfg) (s : Nat → TEntry) (ups : List (Nat × BrType)) (s' : Nat → TEntry) : Nat → TEntry :=
  ups.foldl (fun s' u => match typeUpdate tc s u.1 u.2 with | none => s' | some (w, e) => put s' w e) s'

theorem typeCycle_row (c : Bpu.Cfg) (tc : TCfg) (T : TTable) (r : Nat × Nat) (us : List (W32 × BrType)) : ∀ T' : TTable,
    (us.foldl (fun T' u =>
      let k := typeKey c tc u.1
      match typeUpdate tc (T k.1) k.2 u.2 with
      | none => T'
      | some (w, e) => fun r => if r = k.1 then put (T' r) w e else T' r) T') r =
    setCycle tc (T r) ((us.filter (fun u => (typeKey c tc u.1).1 == r)).map (fun u => ((typeKey c tc u.1).2, u.2))) (T' r) := by
  induction us with
  | nil => intro T'; rfl
  | cons u rest ih =>
    intro T'
    rw [List.foldl_cons, ih]
    by_cases hr : (typeKey c tc u.1).1 = r
    · rw [List.filter_cons_of_pos (by simp [hr]), List.map_cons]
      unfold setCycle
      rw [List.foldl_cons]
      subst hr
      congr 1
      rcases typeUpdate tc (T (typeKey c tc u.1).1) (typeKey c tc u.1).2 u.2 with _ | ⟨w, e⟩
      · rfl
      · exact if_pos rfl
    · rw [List.filter_cons_of_neg (by simp [hr])]
      congr 1
      rcases typeUpdate tc (T (typeKey c tc u.1).1) (typeKey c tc u.1).2 u.2 with _ | ⟨w, e⟩
      · rfl
      · exact if_neg (fun h => hr h.symm)

/-- Every resident tag is where the old set would put it. -/
def Placed (tc : TCfg) (s s' : Nat → TEntry) : Prop :=
  ∀ v, v < tc.ways → (s' v).valid = true → v = dest tc.ways (typeVictim tc.ways s) s (s' v).tag

theorem placed_unique {tc : TCfg} {s s' : Nat → TEntry} (h : Placed tc s s') : Unique tc.ways s' := by
  intro x y hx hy vx vy he
  rw [h x hx vx, h y hy vy, he]

theorem placed_self {tc : TCfg} {s : Nat → TEntry} (u : Unique tc.ways s) : Placed tc s s := by
  intro v hv hval
  unfold dest
  rw [hitWay_unique u hv hval]
  rfl

/-- What an update writes. -/
theorem update_ctl {tc : TCfg} (s : Nat → TEntry) (t : Nat) {ty : BrType} (h : ty ≠ .nonctl) :
    ∃ e, typeUpdate tc s t ty = some (dest tc.ways (typeVictim tc.ways s) s t, e) ∧ e.valid = true ∧ e.tag = t ∧ e.pay.1 = ty := by
  unfold typeUpdate
  dsimp only
  rw [if_neg h]
  unfold dest
  generalize (hitWay tc.ways s t).getD (typeVictim tc.ways s) = w
  generalize (if (hitWay tc.ways s t).isSome = true then s w else tEmpty) = e
  rcases hh : ((hitWay tc.ways s t).isSome && e.pay.1 == ty) with _ | _
  · exact ⟨_, rfl, rfl, rfl, rfl⟩
  · rw [Bool.and_eq_true, beq_iff_eq] at hh
    exact ⟨_, rfl, rfl, rfl, hh.2⟩

theorem update_nonctl {tc : TCfg} (s : Nat → TEntry) (t : Nat) :
    typeUpdate tc s t .nonctl = (hitWay tc.ways s t).map (fun w => (w, tEmpty)) := by
  unfold typeUpdate
  simp

theorem dest_lt {tc : TCfg} (hn : 0 < tc.ways) (s : Nat → TEntry) (t : Nat) :
    dest tc.ways (typeVictim tc.ways s) s t < tc.ways := by
  unfold dest
  rcases h : hitWay tc.ways s t with _ | w
  · exact typeVictim_lt hn s
  · exact (hitWay_some h).1

/-- The state of a set in the middle of a cycle. -/
structure Mid (tc : TCfg) (s : Nat → TEntry) (done : List (Nat × BrType)) (s' : Nat → TEntry) : Prop where
  placed : Placed tc s s'
  says : ∀ t, look tc.ways s' t = none ∨
    (∃ e, look tc.ways s' t = some e ∧ (t, e.pay.1) ∈ done ∧ e.pay.1 ≠ .nonctl) ∨
    ((∀ p ∈ done, p.1 ≠ t) ∧ look tc.ways s' t = look tc.ways s t)

theorem mid_step {tc : TCfg} (hn : 0 < tc.ways) {s : Nat → TEntry} {done : List (Nat × BrType)} {s' : Nat → TEntry}
    (h : Mid tc s done s') (u : Nat × BrType) :
    Mid tc s (done ++ [u]) (match typeUpdate tc s u.1 u.2 with | none => s' | some (w, e) => put s' w e) := by
  obtain ⟨t0, ty⟩ := u
  have hu := placed_unique h.placed
  dsimp only
  by_cases hty : ty = .nonctl
  · subst hty
    rw [update_nonctl]
    rcases hh : hitWay tc.ways s t0 with _ | w
    · refine ⟨h.placed, fun t => ?_⟩
      rcases h.says t with a | ⟨e, a, b, d⟩ | ⟨a, b⟩
      · exact Or.inl a
      · exact Or.inr (Or.inl ⟨e, a, List.mem_append_left _ b, d⟩)
      · by_cases ht : t = t0
        · left
          refine b.trans ?_
          rw [ht]
          unfold look
          rw [hh]; rfl
        · refine Or.inr (Or.inr ⟨fun p hp => ?_, b⟩)
          rcases List.mem_append.mp hp with hp | hp
          · exact a p hp
          · rw [List.mem_singleton.mp hp]; exact fun e => ht e.symm
    · dsimp only [Option.map_some]
      have hev : (tEmpty).valid = false := rfl
      refine ⟨?_, fun t => ?_⟩
      · intro v hv hval
        unfold put at hval ⊢
        by_cases hvw : v = w
        · rw [if_pos hvw] at hval; rw [hev] at hval; cases hval
        · rw [if_neg hvw] at hval ⊢
          exact h.placed v hv hval
      · by_cases ht : t = t0
        · left
          subst ht
          rw [look_none_iff]
          intro v hv hval htag
          unfold put at hval htag
          by_cases hvw : v = w
          · rw [if_pos hvw, hev] at hval; cases hval
          · rw [if_neg hvw] at hval htag
            have := h.placed v hv hval
            rw [htag] at this
            unfold dest at this
            rw [hh] at this
            exact hvw this
        · rcases at_other (n := tc.ways) (w := w) (t := t) hu tEmpty (fun hf => by rw [hev] at hf; cases hf) with a | a
          · exact Or.inl a
          · rw [a]
            rcases h.says t with b | ⟨e, b, d, f⟩ | ⟨b, d⟩
            · exact Or.inl b
            · exact Or.inr (Or.inl ⟨e, b, List.mem_append_left _ d, f⟩)
            · refine Or.inr (Or.inr ⟨fun p hp => ?_, d⟩)
              rcases List.mem_append.mp hp with hp | hp
              · exact b p hp
              · rw [List.mem_singleton.mp hp]; exact fun e => ht e.symm
  · obtain ⟨e, he, hv, htag, hpay⟩ := update_ctl (tc := tc) s t0 hty
    rw [he]
    dsimp only
    have hat : ∀ v, v < tc.ways → (s' v).valid = true → (s' v).tag = e.tag → v = dest tc.ways (typeVictim tc.ways s) s t0 := by
      intro v hv' hval ht
      rw [h.placed v hv' hval, ht, htag]
    refine ⟨?_, fun t => ?_⟩
    · intro v hv' hval
      unfold put at hval ⊢
      by_cases hvw : v = dest tc.ways (typeVictim tc.ways s) s t0
      · rw [if_pos hvw, htag]; exact hvw
      · rw [if_neg hvw] at hval ⊢
        exact h.placed v hv' hval
    · by_cases ht : t = t0
      · have := at_self hu (dest_lt hn s t0) e hat hv
        rw [htag] at this
        rw [ht]
        exact Or.inr (Or.inl ⟨e, this, by rw [hpay]; simp, by rw [hpay]; exact hty⟩)
      · rcases at_other (n := tc.ways) (w := dest tc.ways (typeVictim tc.ways s) s t0) (t := t) hu e
            (fun _ => by rw [htag]; exact ht) with a | a
        · exact Or.inl a
        · rw [a]
          rcases h.says t with b | ⟨e, b, d, f⟩ | ⟨b, d⟩
          · exact Or.inl b
          · exact Or.inr (Or.inl ⟨e, b, List.mem_append_left _ d, f⟩)
          · refine Or.inr (Or.inr ⟨fun p hp => ?_, d⟩)
            rcases List.mem_append.mp hp with hp | hp
            · exact b p hp
            · rw [List.mem_singleton.mp hp]; exact fun e => ht e.symm

theorem mid_run {tc : TCfg} (hn : 0 < tc.ways) {s : Nat → TEntry} (ups : List (Nat × BrType)) :
    ∀ {done : List (Nat × BrType)} {s' : Nat → TEntry}, Mid tc s done s' → Mid tc s (done ++ ups) (setCycle tc s ups s') := by
  induction ups with
  | nil => intro done s' h; rw [List.append_nil]; exact h
  | cons u r ih =>
    intro done s' h
    have := ih (mid_step hn h u)
    rw [List.append_assoc] at this
    exact this

theorem mid_start {tc : TCfg} {s : Nat → TEntry} (u : Unique tc.ways s) : Mid tc s [] s :=
  ⟨placed_self u, fun _ => Or.inr (Or.inr ⟨by simp, rfl⟩)⟩

theorem setCycle_says {tc : TCfg} (hn : 0 < tc.ways) {s : Nat → TEntry} (u : Unique tc.ways s) (ups : List (Nat × BrType)) :
    Mid tc s ups (setCycle tc s ups s) := by
  have := mid_run hn ups (mid_start u)
  rwa [List.nil_append] at this

/-- The updates of one cycle for a row. -/
def rowUps (c : Bpu.Cfg) (tc : TCfg) (r : Nat × Nat) (us : List (W32 × BrType)) : List (Nat × BrType) :=
  (us.filter (fun u => (typeKey c tc u.1).1 == r)).map (fun u => ((typeKey c tc u.1).2, u.2))

theorem typeCycle_set (c : Bpu.Cfg) (tc : TCfg) (T : TTable) (us : List (W32 × BrType)) (r : Nat × Nat) :
    typeCycle c tc T us r = setCycle tc (T r) (rowUps c tc r us) (T r) := typeCycle_row c tc T r us T

theorem table_unique {c : Bpu.Cfg} {tc : TCfg} (hn : 0 < tc.ways) (log : TLog) : ∀ r, Unique tc.ways (tableOf c tc log r) := by
  induction log with
  | nil => intro r v w _ _ h; cases h
  | cons us l ih =>
    intro r
    show Unique tc.ways (typeCycle c tc (tableOf c tc l) us r)
    rw [typeCycle_set]
    exact placed_unique (setCycle_says hn (ih r) _).placed

theorem predict_look {c : Bpu.Cfg} {tc : TCfg} (T : TTable) (pc : W32) :
    typePredict c tc T pc = ((look tc.ways (T (typeKey c tc pc).1) (typeKey c tc pc).2).map (fun e => e.pay.1)).getD .nonctl := by
  unfold typePredict look
  dsimp only
  split <;> next h => simp [h]

theorem mem_rowUps {c : Bpu.Cfg} {tc : TCfg} {us : List (W32 × BrType)} {pc : W32} {ty : BrType}
    (h : ((typeKey c tc pc).2, ty) ∈ rowUps c tc (typeKey c tc pc).1 us) :
    ty ∈ (us.filter (fun u => typeKey c tc u.1 == typeKey c tc pc)).map Prod.snd := by
  unfold rowUps at h
  obtain ⟨u, hu, he⟩ := List.mem_map.mp h
  rw [List.mem_filter] at hu
  simp only [Prod.mk.injEq] at he
  refine List.mem_map.mpr ⟨u, List.mem_filter.mpr ⟨hu.1, ?_⟩, he.2⟩
  have h1 := hu.2
  rw [beq_iff_eq] at h1 ⊢
  exact Prod.ext h1 he.1

theorem look_latest {c : Bpu.Cfg} {tc : TCfg} (hn : 0 < tc.ways) (pc : W32) (log : TLog) :
    look tc.ways (tableOf c tc log (typeKey c tc pc).1) (typeKey c tc pc).2 = none ∨
    ∃ e, look tc.ways (tableOf c tc log (typeKey c tc pc).1) (typeKey c tc pc).2 = some e ∧ e.pay.1 ∈ latest c tc pc log ∧
      e.pay.1 ≠ .nonctl := by
  induction log with
  | nil => left; rw [look_none_iff]; intro w _ h; cases h
  | cons us l ih =>
    have hs := (setCycle_says hn (table_unique (c := c) hn l (typeKey c tc pc).1)
      (rowUps c tc (typeKey c tc pc).1 us)).says (typeKey c tc pc).2
    have ht : tableOf c tc (us :: l) (typeKey c tc pc).1 = setCycle tc (tableOf c tc l (typeKey c tc pc).1)
        (rowUps c tc (typeKey c tc pc).1 us) (tableOf c tc l (typeKey c tc pc).1) := typeCycle_set c tc _ us _
    rw [ht]
    rcases hs with a | ⟨e, a, b, d⟩ | ⟨a, b⟩
    · exact Or.inl a
    · right
      refine ⟨e, a, ?_, d⟩
      have hm := mem_rowUps b
      unfold latest
      dsimp only
      rw [if_neg (by
        intro h
        rw [List.isEmpty_iff] at h
        rw [h] at hm
        cases hm)]
      exact hm
    · rw [b]
      rcases ih with i | ⟨e, i1, i2, i3⟩
      · exact Or.inl i
      · right
        refine ⟨e, i1, ?_, i3⟩
        unfold latest
        dsimp only
        rw [if_pos ?_]
        · exact i2
        · rw [List.isEmpty_iff, List.map_eq_nil_iff, List.filter_eq_nil_iff]
          intro u hu hk
          rw [beq_iff_eq] at hk
          refine a ((typeKey c tc u.1).2, u.2) ?_ (by rw [hk])
          unfold rowUps
          exact List.mem_map.mpr ⟨u, List.mem_filter.mpr ⟨hu, by rw [hk]; simp⟩, rfl⟩

/-- The last update of a set in a cycle is learned. -/
theorem learn {c : Bpu.Cfg} {tc : TCfg} (hn : 0 < tc.ways) {us us' : List (W32 × BrType)} {u : W32 × BrType} (log : TLog)
    (hty : u.2 ≠ .nonctl) (hlast : ∀ v ∈ us', (typeKey c tc v.1).1 ≠ (typeKey c tc u.1).1) :
    typePredict c tc (tableOf c tc ((us ++ u :: us') :: log)) u.1 = u.2 := by
  have ht : tableOf c tc ((us ++ u :: us') :: log) (typeKey c tc u.1).1 = setCycle tc (tableOf c tc log (typeKey c tc u.1).1)
      (rowUps c tc (typeKey c tc u.1).1 (us ++ u :: us')) (tableOf c tc log (typeKey c tc u.1).1) := typeCycle_set c tc _ _ _
  have hr : rowUps c tc (typeKey c tc u.1).1 (us ++ u :: us') =
      rowUps c tc (typeKey c tc u.1).1 us ++ [((typeKey c tc u.1).2, u.2)] := by
    unfold rowUps
    rw [List.filter_append, List.map_append]
    congr 1
    rw [List.filter_cons_of_pos (by simp), List.filter_eq_nil_iff.mpr (by
      intro v hv; simpa using hlast v hv)]
    rfl
  rw [predict_look, ht, hr]
  generalize hs : tableOf c tc log (typeKey c tc u.1).1 = s
  have huq : Unique tc.ways s := by rw [← hs]; exact table_unique hn log _
  have hm := setCycle_says hn huq (rowUps c tc (typeKey c tc u.1).1 us)
  generalize rowUps c tc (typeKey c tc u.1).1 us = ups at hm ⊢
  obtain ⟨e, he, hv, htag, hpay⟩ := update_ctl (tc := tc) s (typeKey c tc u.1).2 hty
  have hc : setCycle tc s (ups ++ [((typeKey c tc u.1).2, u.2)]) s =
      put (setCycle tc s ups s) (dest tc.ways (typeVictim tc.ways s) s (typeKey c tc u.1).2) e := by
    unfold setCycle
    rw [List.foldl_append]
    simp only [List.foldl_cons, List.foldl_nil, he]
  rw [hc]
  have := at_self (placed_unique hm.placed) (dest_lt hn s _) e (fun v hv' hval ht => by
    rw [hm.placed v hv' hval, ht, htag]) hv
  rw [htag] at this
  rw [this]
  simp [hpay]

/-! ### No eviction while the branches of a set fit -/

/-- At most one update of the row in a cycle, and all rows' tags in `K`: the row says exactly what it was told last. -/
theorem retain {c : Bpu.Cfg} {tc : TCfg} (hn : 0 < tc.ways) (r : Nat × Nat) {K : List Nat} (hK : K.length ≤ tc.ways) (log : TLog)
    (hone : ∀ us ∈ log, (rowUps c tc r us).length ≤ 1) (hin : ∀ us ∈ log, ∀ p ∈ rowUps c tc r us, p.1 ∈ K) :
    (∀ w, w < tc.ways → (tableOf c tc log r w).valid = true → (tableOf c tc log r w).tag ∈ K) ∧
    ∀ pc, (typeKey c tc pc).1 = r →
      (look tc.ways (tableOf c tc log r) (typeKey c tc pc).2).map (fun e => e.pay.1) =
        ((latest c tc pc log).head?).bind (fun ty => if ty = .nonctl then none else some ty) := by
  induction log with
  | nil =>
    refine ⟨fun w _ h => by simp [tableOf, tInit, tEmpty] at h, fun pc hpc => ?_⟩
    have : look tc.ways (tableOf c tc [] r) (typeKey c tc pc).2 = none := by
      rw [look_none_iff]; intro w _ h; cases h
    rw [this]; rfl
  | cons us l ih =>
    obtain ⟨ih1, ih2⟩ := ih (fun us h => hone us (by simp [h])) (fun us h => hin us (by simp [h]))
    have ht : tableOf c tc (us :: l) r = setCycle tc (tableOf c tc l r) (rowUps c tc r us) (tableOf c tc l r) :=
      typeCycle_set c tc _ _ _
    have huq := table_unique (c := c) hn l r
    have hlen := hone us (by simp)
    have hK' := hin us (by simp)
    -- the newest cycle of the log, as seen by an address of the row
    have hlat : ∀ pc, (typeKey c tc pc).1 = r →
        (us.filter (fun u => typeKey c tc u.1 == typeKey c tc pc)).map Prod.snd =
          ((rowUps c tc r us).filter (fun p => p.1 == (typeKey c tc pc).2)).map Prod.snd := by
      intro pc hpc
      unfold rowUps
      rw [List.filter_map, List.map_map, List.filter_filter]
      have hf : (fun u : W32 × BrType => typeKey c tc u.1 == typeKey c tc pc) =
          (fun u => ((fun p : Nat × BrType => p.1 == (typeKey c tc pc).2) ∘ fun u : W32 × BrType => ((typeKey c tc u.1).2, u.2)) u &&
            ((typeKey c tc u.1).1 == r)) := by
        funext u
        rw [Bool.eq_iff_iff]
        simp only [Function.comp, Bool.and_eq_true, beq_iff_eq]
        rw [← hpc]
        constructor
        · intro h; exact ⟨by rw [h], by rw [h]⟩
        · intro h; exact Prod.ext h.2 h.1
      rw [hf]
      rfl
    rw [ht]
    generalize hs : tableOf c tc l r = s at *
    generalize rowUps c tc r us = ups at *
    match ups, hlen with
    | [], _ =>
      refine ⟨ih1, fun pc hpc => ?_⟩
      have hl : latest c tc pc (us :: l) = latest c tc pc l := by
        conv => lhs; unfold latest
        dsimp only
        rw [hlat pc hpc]
        rfl
      rw [hl]
      exact ih2 pc hpc
    | [(t0, ty)], _ =>
      have hc : setCycle tc s [(t0, ty)] s = (match typeUpdate tc s t0 ty with | none => s | some (w, e) => put s w e) := rfl
      rw [hc]
      have hl : ∀ pc, (typeKey c tc pc).1 = r → latest c tc pc (us :: l) =
          if t0 = (typeKey c tc pc).2 then [ty] else latest c tc pc l := by
        intro pc hpc
        conv => lhs; unfold latest
        dsimp only
        rw [hlat pc hpc]
        by_cases he : t0 = (typeKey c tc pc).2
        · rw [if_pos he, List.filter_cons_of_pos (by simp [he])]; rfl
        · rw [if_neg he, List.filter_cons_of_neg (by simp [he])]; rfl
      have ht0 : t0 ∈ K := hK' (t0, ty) (by simp)
      by_cases hty : ty = .nonctl
      · subst hty
        rw [update_nonctl]
        rcases hh : hitWay tc.ways s t0 with _ | w
        · refine ⟨ih1, fun pc hpc => ?_⟩
          rw [hl pc hpc]
          dsimp only [Option.map_none]
          by_cases he : t0 = (typeKey c tc pc).2
          · rw [if_pos he]
            unfold look
            rw [← he, hh]
            rfl
          · rw [if_neg he]; exact ih2 pc hpc
        · dsimp only [Option.map_some]
          obtain ⟨hw, hwv, hwt⟩ := hitWay_some hh
          refine ⟨fun v hv hval => ?_, fun pc hpc => ?_⟩
          · by_cases hvw : v = w
            · rw [hvw] at hval; simp [put, tEmpty] at hval
            · simp only [put, if_neg hvw] at hval ⊢; exact ih1 v hv hval
          · rw [hl pc hpc]
            by_cases he : t0 = (typeKey c tc pc).2
            · rw [if_pos he]
              have : look tc.ways (put s w tEmpty) (typeKey c tc pc).2 = none := by
                rw [look_none_iff]
                intro v hv hval htag
                unfold put at hval htag
                by_cases hvw : v = w
                · rw [if_pos hvw] at hval; cases hval
                · rw [if_neg hvw] at hval htag
                  exact hvw (huq v w hv hw hval hwv (by rw [htag, hwt, he]))
              rw [this]; rfl
            · rw [if_neg he, ← ih2 pc hpc]
              congr 1
              rcases h : look tc.ways s (typeKey c tc pc).2 with _ | f
              · rcases at_other (n := tc.ways) (w := w) (t := (typeKey c tc pc).2) huq tEmpty (fun h => by cases h) with a | a
                · exact a
                · rw [a, h]
              · obtain ⟨v, hv, rfl, hval, htag⟩ := (look_iff huq).mp h
                have hvw : v ≠ w := fun hvw => by
                  rw [hvw, hwt] at htag; exact he htag
                have huq' : Unique tc.ways (put s w tEmpty) := by
                  intro x y hx hy vx vy hxy
                  unfold put at vx vy hxy
                  by_cases hxw : x = w
                  · rw [if_pos hxw] at vx; cases vx
                  · by_cases hyw : y = w
                    · rw [if_pos hyw] at vy; cases vy
                    · rw [if_neg hxw] at vx hxy
                      rw [if_neg hyw] at vy hxy
                      exact huq x y hx hy vx vy hxy
                exact (look_iff huq').mpr ⟨v, hv, by simp [put, hvw], hval, htag⟩
      · obtain ⟨e, he', hv, htag, hpay⟩ := update_ctl (tc := tc) s t0 hty
        rw [he']
        dsimp only
        have hfree : hitWay tc.ways s t0 = none → (s (typeVictim tc.ways s)).valid = false := by
          intro hm
          obtain ⟨w, hw⟩ := free_of_fit huq hK ih1 ht0 hm
          unfold typeVictim
          rw [hw]
          exact (freeWay_some hw).2
        refine ⟨fun v hv' hval => ?_, fun pc hpc => ?_⟩
        · by_cases hvw : v = dest tc.ways (typeVictim tc.ways s) s t0
          · simp only [put, if_pos hvw, htag]; exact ht0
          · simp only [put, if_neg hvw] at hval ⊢; exact ih1 v hv' hval
        · rw [hl pc hpc]
          by_cases he : t0 = (typeKey c tc pc).2
          · rw [if_pos he, ← he, look_put_self huq (typeVictim_lt hn s) t0 e htag hv]
            simp [hpay, hty]
          · rw [if_neg he, look_put_keep huq e htag (fun h => he h.symm) hfree]
            exact ih2 pc hpc

end Verif.BpuTab

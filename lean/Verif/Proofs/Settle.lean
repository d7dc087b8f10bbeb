import Verif.Proofs.Alive
/-
Lemmas for C125: while nothing retires, the reorder buffer settles: it is filled in order, what a misprediction removes follows a branch that is
resolved by it for good, and its size is bounded.
-/
namespace Verif.SettleProofs
open Verif.Spine Verif.SpineProofs Verif.AliveProofs
open Verif.RobQueue (insts sig)
open Verif.DispatchGroup (fired waiting)

/-! ### Sequences of lists -/

/-- A sequence of sorted lists of bounded length, in which each list is either extended or, at an element that has just been marked for
good, cut off. -/
structure Grows (r : Nat → List Nat) (m : Nat → Bool) (D : Nat → Nat → Prop) (N t0 : Nat) : Prop where
  sorted : ∀ t ≥ t0, (r t).Pairwise (· < ·)
  bound : ∀ t ≥ t0, (r t).length ≤ N
  ext : ∀ t ≥ t0, m t = false → ∃ l, r (t + 1) = r t ++ l
  keep : ∀ t ≥ t0, ∀ u ∈ r t, D t u → u ∈ r (t + 1) → D (t + 1) u
  cut : ∀ t ≥ t0, m (t + 1) = true → ∃ b ∈ r t, ¬ D t b ∧ D (t + 1) b ∧ b ∈ r (t + 1) ∧ r (t + 2) = (r (t + 1)).filter (· ≤ b)

section
variable {r : Nat → List Nat} {m : Nat → Bool} {D : Nat → Nat → Prop} {N t0 : Nat}

/-- Elements of a fixed beginning cut the list off only finitely often. -/
theorem calm (G : Grows r m D N t0) (l : List Nat) : ∀ (w : List Nat), w.Sublist l → ∀ T ≥ t0, (∀ t ≥ T, l <+: r t) → (∀ u ∈ l, u ∉ w → D T u) →
    ∃ T' ≥ T, ∀ t ≥ T', m (t + 1) = true → ∃ b ∈ r (t + 1), b ∉ l ∧ r (t + 2) = (r (t + 1)).filter (· ≤ b) := by
  have mono : ∀ T ≥ t0, (∀ t ≥ T, l <+: r t) → ∀ u ∈ l, D T u → ∀ t ≥ T, D t u := by
    intro T hT hp u hu hD t ht
    induction t, ht using le_ind with
    | base => exact hD
    | succ t ht ih => exact G.keep t (by omega) u ((hp t ht).subset hu) ih ((hp (t + 1) (by omega)).subset hu)
  intro w
  induction hn : w.length using Nat.strongRecOn generalizing w with
  | ind n ih =>
    intro hw T hT hp hd
    by_cases hc : ∃ t ≥ T, m (t + 1) = true ∧ ¬ ∃ b ∈ r (t + 1), b ∉ l ∧ r (t + 2) = (r (t + 1)).filter (· ≤ b)
    · obtain ⟨t, ht, hm, hno⟩ := hc
      obtain ⟨b, hb, hnD, hD, hb', hcut⟩ := G.cut t (by omega) hm
      have hbl : b ∈ l := Classical.byContradiction fun h => hno ⟨b, hb', h, hcut⟩
      have hbw : b ∈ w := Classical.byContradiction fun h => hnD (mono T hT hp b hbl (hd b hbl h) t ht)
      have hlt : (w.filter (· ≠ b)).length < w.length := by
        refine List.length_filter_lt_length_iff_exists.2 ⟨b, hbw, by simp⟩
      obtain ⟨T', hT', h⟩ := ih _ (hn ▸ hlt) (w.filter (· ≠ b)) rfl ((List.filter_sublist).trans hw) (t + 1) (by omega) (fun t' ht' => hp t' (by omega))
        (fun u hu hnu => by
          by_cases he : u = b
          · rw [he]; exact hD
          · have : u ∉ w := fun h => hnu (List.mem_filter.2 ⟨h, by simpa using he⟩)
            exact mono T hT hp u hu (hd u hu this) (t + 1) (by omega))
      exact ⟨T', by omega, h⟩
    · refine ⟨T, Nat.le_refl _, fun t ht hm => Classical.byContradiction fun h => hc ⟨t, ht, hm, h⟩⟩

theorem prefix_grows (G : Grows r m D N t0) : ∀ k, ∃ T ≥ t0, ∃ l : List Nat, (∀ t ≥ T, l <+: r t) ∧ (l.length = k ∨ ∀ t ≥ T, r t = l) := by
  intro k
  induction k with
  | zero => exact ⟨t0, Nat.le_refl _, [], fun t _ => List.nil_prefix, .inl rfl⟩
  | succ k ih =>
    obtain ⟨T, hT, l, hp, hl⟩ := ih
    rcases hl with hl | hl
    · obtain ⟨T', hT', hcalm⟩ := calm G l l (List.Sublist.refl _) T hT hp (fun u hu hn => absurd hu hn)
      by_cases hall : ∀ t ≥ T' + 1, r t = l
      · exact ⟨T' + 1, by omega, l, fun t ht => hp t (by omega), .inr hall⟩
      · obtain ⟨t1, ht1⟩ : ∃ t1, ¬ (t1 ≥ T' + 1 → r t1 = l) := Classical.byContradiction fun h => hall fun t ht =>
          Classical.byContradiction fun h' => h ⟨t, fun h'' => h' (h'' ht)⟩
        have h1 : t1 ≥ T' + 1 := Classical.byContradiction fun h => ht1 fun h' => absurd h' h
        have h2 : r t1 ≠ l := fun h => ht1 fun _ => h
        obtain ⟨e, he⟩ := hp t1 (by omega)
        cases e with
        | nil => rw [List.append_nil] at he; exact absurd he.symm h2
        | cons x e =>
          refine ⟨t1, by omega, l ++ [x], ?_, .inl (by rw [List.length_append, hl]; rfl)⟩
          intro t ht
          induction t, ht using le_ind with
          | base => exact ⟨e, by rw [← he]; simp⟩
          | succ t ht ih =>
            cases hm : m t with
            | false =>
              obtain ⟨a, ha⟩ := G.ext t (by omega) hm
              rw [ha]; exact ih.trans (List.prefix_append _ _)
            | true =>
              obtain ⟨t', rfl⟩ : ∃ t', t = t' + 1 := ⟨t - 1, by omega⟩
              obtain ⟨b, hb, hbl, hcut⟩ := hcalm t' (by omega) hm
              obtain ⟨e', he'⟩ := ih
              have hs := G.sorted (t' + 1) (by omega)
              rw [← he', List.append_assoc, List.pairwise_append] at hs
              have hxb : x ≤ b := by
                rw [← he', List.append_assoc] at hb
                rcases List.mem_append.1 hb with h | h
                · exact absurd h hbl
                · rcases List.mem_cons.1 h with h | h
                  · exact Nat.le_of_eq h.symm
                  · exact Nat.le_of_lt ((List.pairwise_cons.1 hs.2.1).1 b h)
              rw [hcut, ← he', List.filter_append]
              rw [List.filter_eq_self.2 (by
                intro u hu
                rcases List.mem_append.1 hu with h | h
                · exact decide_eq_true (Nat.le_trans (Nat.le_of_lt (hs.2.2 u h x (by simp))) hxb)
                · rw [List.mem_singleton.1 h]; exact decide_eq_true hxb)]
              exact List.prefix_append _ _
    · exact ⟨T, hT, l, hp, .inr hl⟩

/-- Such a sequence settles. -/
theorem settles (G : Grows r m D N t0) : ∃ T ≥ t0, ∃ l, ∀ t ≥ T, r t = l := by
  obtain ⟨T, hT, l, hp, hl⟩ := prefix_grows G (N + 1)
  rcases hl with hl | hl
  · have := (hp T (Nat.le_refl _)).length_le
    have := G.bound T hT
    omega
  · exact ⟨T, hT, l, hl⟩

end

/-! ### The reorder buffer -/

section
variable {n : Nat} {k : Cfg} {s : St n} {bw : BranchWindow.Sys n} {rw : RenWindow.Sys} {Z : List (BranchWindow.Flight n × Sig)} {g : Nat → BitVec 3}
  {c : Cyc n}

theorem rob_bound (hk : Good k) (hl : Link k s bw rw Z g) : (robIds k s).length ≤ k.L * k.dis.banks := by
  obtain ⟨W, hW⟩ := Proofs.Rob.rinv_reach hk.lines hl.qr
  unfold robIds
  rw [List.length_map, Proofs.Rob.rinv_insts hW]
  unfold Proofs.Rob.content
  refine Nat.le_trans (List.length_filterMap_le _ _) ?_
  have h1 : ∀ x ∈ W, x.length = k.dis.banks := by
    intro x hx
    rw [← hW.win] at hx
    obtain ⟨i, hi, rfl⟩ := (Ring.mem_ring k.L s.rob.rows _ _ hW.deqLt).1 hx
    exact hW.rowLen _
  have h2 : W.flatten.length = W.length * k.dis.banks := by
    clear hW
    induction W with
    | nil => simp
    | cons x W ih =>
      rw [List.flatten_cons, List.length_append, ih fun y hy => h1 y (List.mem_cons_of_mem _ hy), h1 x (List.mem_cons_self ..), List.length_cons,
        Nat.add_mul, Nat.one_mul, Nat.add_comm]
  rw [h2]
  exact Nat.mul_le_mul_right _ hW.len

theorem rob_sorted (hk : Good k) (h : Reach k s) : (robIds k s).Pairwise (· < ·) := by
  have ho := (Props.C106_ordered hk h).1
  unfold inflight at ho
  rw [List.append_assoc, List.pairwise_append] at ho
  exact ho.1

/-- A cycle without misprediction in which nothing retires. -/
theorem rob_ext (hk : Good k) (hl : Link k s bw rw Z g) (hf : flush s c = false) (hm : s.idu.latch.mispred = false) (hr : retired s c = []) :
    robIds k (step k s c) = robIds k s ++ (fired (disOut k s c)).map (·.inst.ftq) := by
  obtain ⟨_, _, rest, _, hins, _, _, _, hs⟩ := hl.split hk c
  rw [hf, if_neg (by simp), hm, if_neg (by simp)] at hs
  have hids := congrArg (List.map Prod.fst) hs
  rw [List.map_append, List.map_map, List.map_map, List.map_map] at hids
  have hids : robIds k (step k s c) = rest.map (·.id) ++ (fired (disOut k s c)).map (·.inst.ftq) := hids
  rw [hids]
  unfold robIds
  rw [hins, hr]; rfl

/-- A misprediction. -/
theorem rob_cut (hk : Good k) (h : Reach k s) (hv : Valid k s c) (hm : s.idu.latch.mispred = true) :
    ∃ b ∈ insts k.L s.rob, b.robIdx = s.redirect ∧ robIds k (step k s c) = (robIds k s).filter (· ≤ b.id) := by
  obtain ⟨b, hb, hbr, _, _, _, _, hin⟩ := Props.C106_squash hk h hv hm
  refine ⟨b, hb, hbr, ?_⟩
  obtain ⟨e1, e2, _⟩ := emptied (k := k) (c := c) (.inr hm)
  have hro : inflight k (step k s c) = robIds k (step k s c) := by
    unfold inflight disIds latIds; rw [e1, e2]; simp
  rw [← hro, hin]
  unfold inflight
  have hno : (disIds s ++ latIds s).filter (fun x => decide (x ≤ b.id)) = [] := by
    rw [List.filter_eq_nil_iff]
    intro d hd
    have := SchedProofs.rob_lt_dis hk h (List.mem_map_of_mem (f := fun u : Rob.Uop => u.id) hb) hd
    simp only [decide_eq_true_eq]; omega
  rw [List.append_assoc, List.filter_append, hno, List.append_nil]

/-- The parts reported of an instruction that stays. -/
theorem cplt_next (hk : Good k) (h : Reach k s) (hl : Link k s bw rw Z g) (hv : Valid k s c) {v v' : Rob.Uop} (hvm : v ∈ insts k.L s.rob)
    (hvm' : v' ∈ insts k.L (step k s c).rob) (he : v'.id = v.id) :
    sig v' = sig v ∧ (v'.cplt.getLsbD 1 = true ↔ v.cplt.getLsbD 1 = true ∨ ∃ w ∈ c.wbs ++ c.res.map brWb, w.robIdx = v.robIdx ∧
      w.bit.getLsbD 1 = true) := by
  obtain ⟨Z', hl'⟩ := link_step hk hl hv
  obtain ⟨W, hW⟩ := Proofs.Rob.rinv_reach hk.lines hl.qr
  obtain ⟨W', hW'⟩ := Proofs.Rob.rinv_reach hk.lines hl'.qr
  have hnew : ∀ a ∈ fired (disOut k s c), a.inst.ftq ≠ v.id := by
    intro a ha e
    have := SchedProofs.rob_lt_dis hk h (List.mem_map_of_mem (f := fun u : Rob.Uop => u.id) hvm) (List.mem_append_left (latIds s) (SchedProofs.fired_dis hl ha))
    omega
  have hsig : sig v' = sig v := by
    rcases (SchedProofs.rob_old hk hl hvm').2 with ⟨u, hu, e⟩ | ⟨_, a, ha, e⟩
    · have : u.id = v'.id := (congrArg Prod.fst e).symm
      rw [e, SchedProofs.id_inj hk h hu hvm (this.trans he)]
    · exact absurd ((congrArg Prod.fst e).symm.trans he) (hnew a ha)
  refine ⟨hsig, ?_⟩
  have hidx : v'.robIdx = v.robIdx := congrArg (fun x : Sig => x.2.1) hsig
  have hf := (SchedProofs.rob_old hk hl hvm').1
  have hnf : ¬ ∃ u ∈ RobQueue.dispatched (robIn k s c), u.robIdx = v.robIdx := by
    rintro ⟨u, hu, e⟩
    have hu : u ∈ (fireRow (disOut k s c)).filterMap id := hu
    rw [row_fired] at hu
    obtain ⟨a, ha, rfl⟩ := List.mem_map.1 hu
    have hmi : s.idu.latch.mispred = false := by
      cases hmi : s.idu.latch.mispred with
      | false => rfl
      | true =>
        have := (blocked (k := k) (c := c) (.inr (.inl hmi)) (s := s)).2
        rw [this] at ha; cases ha
    have hmem : sig (toUop a) ∈ (insts k.L (step k s c).rob).map sig := by
      obtain ⟨_, _, rest, _, _, _, _, _, hs⟩ := hl.split hk c
      rw [hs, hf, if_neg (by simp), hmi, if_neg (by simp)]
      exact List.mem_append_right _ (List.mem_map.2 ⟨a, ha, rfl⟩)
    obtain ⟨x, hx, hxs⟩ := List.mem_map.1 hmem
    have : x = v' := pair_inj (f := fun u : Rob.Uop => u.robIdx) (rob_inj hW') hx hvm' (by
      show x.robIdx = v'.robIdx
      rw [hidx, ← e]; exact congrArg (fun x : Sig => x.2.1) hxs)
    subst this
    exact hnew a ha ((congrArg Prod.fst hxs).symm.trans he)
  rw [done_mem hW' hl'.done hvm', hidx]
  unfold RobQueue.report
  rw [if_neg hnf, ← done_mem hW hl.done hvm]
  exact fold_bit _ _ _

/-- The branch found mispredicted in this cycle had not been resolved, is still there and is resolved for good. -/
theorem resolves (hk : Good k) (h : Reach k s) (hl : Link k s bw rw Z g) (hv : Valid k s c) (hf : flush s c = false) (hr : retired s c = [])
    (hm : (step k s c).idu.latch.mispred = true) : ∃ u ∈ insts k.L s.rob, u.cplt.getLsbD 1 = false ∧
      ∀ b ∈ insts k.L (step k s c).rob, b.robIdx = (step k s c).redirect → b.id = u.id ∧ b.cplt.getLsbD 1 = true := by
  have hlat : (step k s c).idu.latch = exu2id c := by
    show (Idu.combFire s.idu k.maxBr (decSlots k s c) (renReady k s c) (flush s c) (exu2id c)).latch = _
    unfold Idu.combFire
    rw [hf]
    simp only [Bool.false_eq_true, if_false]
    split <;> rfl
  rw [hlat] at hm
  obtain ⟨w, hw⟩ := Option.isSome_iff_exists.1 (show (arb c).worst.isSome = true from hm)
  have hred : (step k s c).redirect = w.robIdx := by
    show (if flush s c then 0 else ((arb c).worst.map (·.robIdx)).getD 0) = _
    rw [hf, hw]; rfl
  rcases arb_worst c.res _ hw with e | ⟨hmem, hmis⟩
  · cases e
  rcases hv.res w hmem with ⟨u, hu, e1, _, e3⟩ | e
  · have hum : u ∈ insts k.L s.rob := by
      unfold live at hu
      split at hu
      · rw [← Proofs.Rob.upTo_prefix s.redirect (insts k.L s.rob)]; exact List.mem_append_left _ hu
      · exact hu
    refine ⟨u, hum, e3, fun b hb hbr => ?_⟩
    have hst : sig u ∈ (insts k.L (step k s c).rob).map sig := by
      obtain ⟨_, _, rest, _, hins, _, _, _, hs⟩ := hl.split hk c
      rw [hs, hf, if_neg (by simp)]
      unfold live at hu
      split
      · rename_i hmi
        rw [if_pos hmi] at hu
        exact List.mem_map_of_mem hu
      · rw [hr, List.nil_append] at hins
        rw [← hins]
        exact List.mem_append_left _ (List.mem_map_of_mem hum)
    obtain ⟨x, hx, hxs⟩ := List.mem_map.1 hst
    obtain ⟨Z', hl'⟩ := link_step hk hl hv
    obtain ⟨W', hW'⟩ := Proofs.Rob.rinv_reach hk.lines hl'.qr
    have : b = x := pair_inj (f := fun u : Rob.Uop => u.robIdx) (rob_inj hW') hb hx (by
      show b.robIdx = x.robIdx
      rw [hbr, hred, ← e1]; exact (congrArg (fun x : Sig => x.2.1) hxs).symm)
    subst this
    have hid : b.id = u.id := congrArg Prod.fst hxs
    exact ⟨hid, (cplt_next hk h hl hv hum hb hid).2.2 (.inr ⟨brWb w, List.mem_append_right _ (List.mem_map_of_mem hmem), e1.symm, by show (2#3).getLsbD 1 = true; decide⟩)⟩
  · rw [e.2.1] at hmis; cases hmis

end
end Verif.SettleProofs

import Verif.Spec.HandOff
import Verif.Props.Fetch
/-
What the front end has delivered since the last redirect: a path, of the right words.
-/
namespace Verif.HandOff
open Verif.Front Verif.Fetch
open Verif.FetchStream (Ev want answers after GroupOk)
open Verif.ICache (World Lanes phys lineOf)

variable {W : Nat}

/-- Where a path goes on. -/
def pathEnd (a : Option W32) : List Insn → Option W32
  | [] => a
  | i :: r => pathEnd (if i.pc.toNat % 4 = 0 then some i.pn else none) r

theorem path_append (a : Option W32) (l m : List Insn) : Path a (l ++ m) ↔ Path a l ∧ Path (pathEnd a l) m := by
  induction l generalizing a with
  | nil => simp [Path, pathEnd]
  | cons i r ih => simp only [List.cons_append, Path, pathEnd, ih, and_assoc]

theorem pathEnd_append (a : Option W32) (l m : List Insn) : pathEnd a (l ++ m) = pathEnd (pathEnd a l) m := by
  induction l generalizing a with
  | nil => rfl
  | cons i r ih => simp only [List.cons_append, pathEnd, ih]

theorem path_weaken {a b : Option W32} {l : List Insn} (h : Path a l) (hb : ∀ x, b = some x → a = some x) : Path b l := by
  cases l with
  | nil => trivial
  | cons i r => exact ⟨fun x hx => h.1 x (hb x hx), h.2⟩

theorem finRange_drop {n : Nat} (h : n < W) : (List.finRange W).drop n = ⟨n, h⟩ :: (List.finRange W).drop (n + 1) := by
  rw [← List.getElem_cons_drop (by simpa using h)]
  simp

/-- One group as a piece of a path. -/
theorem group_path {o : Out W Nat} {pc : W32} (hpc : ∀ j : Fin W, o.pc j = pc + BitVec.ofNat 32 (j.val * 4))
    (hv : ∀ j : Fin W, o.valid j = decide (pc.toNat % 64 / 4 + j.val < 16)) (hW : W * 4 ≤ 64) (hg : GroupOk 64 o) :
    ∀ (k n : Nat), k + n = W → ∀ a : Option W32, (∀ x, a = some x → x = pc + BitVec.ofNat 32 (n * 4) ∧ (0 < n → pc.toNat % 4 = 0)) →
      (∀ j : Fin W, j.val < n → o.dir j = false) → (n = 0 → 0 < W) → (0 < n → pc.toNat % 64 / 4 + (n - 1) < 16) →
      Path a (upTo o ((List.finRange W).drop n)) ∧
        ∀ x, pathEnd a (upTo o ((List.finRange W).drop n)) = some x → o.next = x := by
  have fin : ∀ n : Nat, ∀ a : Option W32, (∀ x, a = some x → x = pc + BitVec.ofNat 32 (n * 4) ∧ (0 < n → pc.toNat % 4 = 0)) →
      (∀ j : Fin W, j.val < n → o.dir j = false) → 0 < n → n ≤ W → (n < W → ¬ (pc.toNat % 64 / 4 + n < 16)) →
      (pc.toNat % 64 / 4 + (n - 1) < 16) → ∀ x, a = some x → o.next = x := by
    intro n a ha hd h0 hn hlt hle x hx
    obtain ⟨e, hal⟩ := ha x hx
    have hal := hal h0
    have hall : ∀ j, o.dir j = false := by
      intro j
      rcases Nat.lt_or_ge j.val n with h | h
      · exact hd j h
      · cases hdj : o.dir j with
        | false => rfl
        | true =>
          have := (hg.taken j hdj).1
          rw [hv, decide_eq_true_eq] at this
          have h3 := hlt (by omega)
          omega
    have := hg.seq ⟨0, by omega⟩ rfl hall
    rw [this, after, hpc, e]
    simp only [Nat.zero_mul, BitVec.add_zero]
    congr 2
    rcases Nat.lt_or_ge n W with h | h
    · have := hlt h; omega
    · omega
  intro k
  induction k with
  | zero =>
    intro n hn a ha hd h0 hb
    obtain rfl : n = W := by omega
    rw [List.drop_eq_nil_of_le (by simp)]
    refine ⟨trivial, ?_⟩
    intro x hx
    rcases Nat.eq_zero_or_pos n with h | h
    · have := h0 h; omega
    · exact fin n a ha hd h (Nat.le_refl _) (by omega) (hb h) x hx
  | succ k ih =>
    intro n hn a ha hd h0 hb
    have hlt : n < W := by omega
    rw [finRange_drop hlt]
    unfold upTo
    by_cases hvj : o.valid ⟨n, hlt⟩ = true
    · rw [if_pos hvj]
      have e0 := hpc ⟨n, hlt⟩
      simp only at e0
      have hfirst : ∀ x, a = some x → o.pc ⟨n, hlt⟩ = x := fun x hx => by rw [e0, (ha x hx).1]
      have hmod : (o.pc ⟨n, hlt⟩).toNat % 4 = pc.toNat % 4 := by
        rw [e0, BitVec.toNat_add, BitVec.toNat_ofNat]; omega
      by_cases hdj : o.dir ⟨n, hlt⟩ = true
      · rw [if_pos hdj]
        refine ⟨⟨hfirst, trivial⟩, ?_⟩
        intro x hx
        simp only [pathEnd, Insn.pn, hdj, if_true] at hx
        split at hx
        · exact Option.some.inj hx
        · cases hx
      · rw [if_neg hdj]
        have key := ih (n + 1) (by omega)
          (if (o.pc ⟨n, hlt⟩).toNat % 4 = 0 then some (Insn.pn ⟨o.pc ⟨n, hlt⟩, o.insts ⟨n, hlt⟩, o.pf ⟨n, hlt⟩, o.dir ⟨n, hlt⟩, o.next⟩) else none)
          (by
            intro x hx
            split at hx
            · rename_i hm
              obtain rfl := Option.some.inj hx
              refine ⟨?_, fun _ => by omega⟩
              simp only [Insn.pn, hdj, Bool.false_eq_true, if_false, e0]
              rw [BitVec.add_assoc]
              congr 1
              apply BitVec.eq_of_toNat_eq
              simp only [BitVec.toNat_add, BitVec.toNat_ofNat]
              omega
            · cases hx)
          (by
            intro j hj
            rcases Nat.lt_or_ge j.val n with h | h
            · exact hd j h
            · have : j = ⟨n, hlt⟩ := Fin.ext (by simp only; omega)
              rw [this]; simpa using hdj)
          (by omega)
          (by
            intro _
            rw [hv, decide_eq_true_eq] at hvj
            simpa using hvj)
        refine ⟨⟨hfirst, key.1⟩, ?_⟩
        intro x hx
        exact key.2 x hx
    · rw [if_neg hvj]
      rw [hv, decide_eq_true_eq] at hvj
      simp only at hvj
      -- nothing behind is valid either
      have hnil : ∀ m, n ≤ m → upTo o ((List.finRange W).drop m) = [] := by
        intro m hm
        generalize hr : W - m = r
        induction r generalizing m with
        | zero => rw [List.drop_eq_nil_of_le (by simp; omega)]; rfl
        | succ r ihr =>
          have hm' : m < W := by omega
          rw [finRange_drop hm']
          unfold upTo
          rw [if_neg (by rw [hv, decide_eq_true_eq]; simp only; omega)]
          exact ihr (m + 1) (by omega) (by omega)
      rw [hnil (n + 1) (by omega)]
      refine ⟨trivial, fun x hx => ?_⟩
      rcases Nat.eq_zero_or_pos n with h | h
      · omega
      · exact fin n a ha hd h (by omega) (fun _ => hvj) (hb h) x hx

/-- The lanes of an answer are valid exactly up to the end of the line. -/
theorem frun_valid {k : Cfg} {tr : List (Ev W Nat)} {w : World} {s : Both W Nat} (h : FRun k tr w s) :
    ∀ r ∈ answers tr, ∀ j : Fin W, r.valid j = decide (r.pc.toNat % 64 / 4 + j.val < 16) := by
  induction h with
  | init w => intro r hr; cases hr
  | @step tr w w' s s' resp o i _ hok hw hc ih =>
    intro r hr j
    rw [answers] at hr
    by_cases hc1 : (false || (if i.refetch then some i.refetchAddr else none).isSome) = true
    · rw [if_pos hc1] at hr; cases hr
    · rw [if_neg hc1, List.mem_append] at hr
      rcases hr with hr | hr
      · unfold Both.cycle at hc
        simp only [bind, Option.bind_eq_some_iff, pure, Option.some.injEq, Prod.mk.injEq] at hc
        obtain ⟨m, h1, ⟨f', o'⟩, h2, h3, h4, h5⟩ := hc
        rw [Option.mem_toList, ← h4] at hr
        obtain ⟨x, _, rfl⟩ := Option.map_eq_some_iff.mp hr
        simp only [ICache.glue]
        have : (x.1 &&& 63#32).toNat = x.1.toNat % 64 := by
          rw [BitVec.toNat_and]
          exact Nat.and_two_pow_sub_one_eq_mod _ 6
        rw [this]
        rfl
      · exact ih r hr j

/-- A group delivered: a piece of the path from where the ones before end. -/
theorem frun_group [NeZero W] {k : Cfg} (hcap : k.ptabCap - 1 ≤ k.instCap) (hline : k.line = 64#32) (hW : W * 4 ≤ 64)
    {tr : List (Ev W Nat)} {e : Ev W Nat} {w : World} {s : Both W Nat} (h : FRun k (e :: tr) w s) (g : Out W Nat)
    (hg : e.out = some g) :
    Path (some (want k.resetPc tr)) (insnsOf g) ∧ ∀ x, pathEnd (some (want k.resetPc tr)) (insnsOf g) = some x → g.next = x := by
  obtain ⟨q, hrun, _, _⟩ := Props.frun_run h
  have h0 : 0 < W := Nat.pos_of_ne_zero (NeZero.ne W)
  obtain ⟨_, _, hpc⟩ := Props.C72_path hcap hrun g hg
  obtain ⟨r, h4, h5, h6, h7, h8⟩ := Props.C74_words hcap hrun g hg
  have hok := Props.C71_group hcap 6 hline (by omega) hW hrun g hg
  have hv := frun_valid h r h4
  have h9 : r.pc = want k.resetPc tr := by rw [h5, hpc 0]; simp
  have := group_path (o := g) (pc := want k.resetPc tr) hpc (by intro j; rw [h8, hv j, h9]) hW hok W 0 (by omega)
    (some (want k.resetPc tr)) (by intro x hx; rw [← Option.some.inj hx]; simp) (by intro j hj; omega) (fun _ => h0)
    (by omega)
  simpa [insnsOf] using this

/-- What has been delivered since the last redirect is a path from its address. -/
theorem frun_path [NeZero W] {k : Cfg} (hcap : k.ptabCap - 1 ≤ k.instCap) (hline : k.line = 64#32) (hW : W * 4 ≤ 64)
    {tr : List (Ev W Nat)} {w : World} {s : Both W Nat} (h : FRun k tr w s) :
    Path (some (start k.resetPc tr)) (delivered tr) ∧
      ∀ x, pathEnd (some (start k.resetPc tr)) (delivered tr) = some x → want k.resetPc tr = x := by
  induction h with
  | init w => exact ⟨trivial, fun x hx => Option.some.inj hx⟩
  | @step tr w w' s s' resp o i h0 hok hw hc ih =>
    have hnew := FRun.step i h0 hok hw hc
    cases hrf : i.refetch with
    | true =>
      simp only [delivered, start, want, if_true, Option.isSome_some, Option.getD_some, Bool.false_eq_true, if_false]
      exact ⟨trivial, fun x hx => Option.some.inj hx⟩
    | false =>
      simp only [hrf, Bool.false_eq_true, if_false] at hnew
      simp only [delivered, start, want, Bool.false_eq_true, if_false, Option.isSome_none, Option.getD_none]
      cases ho : o.out with
      | none => simpa [ho] using ih
      | some g =>
        obtain ⟨p1, p2⟩ := frun_group hcap hline hW hnew g ho
        simp only [Option.map_some, Option.getD_some]
        rw [path_append, pathEnd_append]
        refine ⟨⟨ih.1, path_weaken p1 fun x hx => by rw [ih.2 x hx]⟩, ?_⟩
        intro x hx
        cases hE : pathEnd (some (start k.resetPc tr)) (delivered tr) with
        | some y => rw [hE, ← ih.2 y hE] at hx; exact p2 x hx
        | none =>
          rw [hE] at hx
          apply p2
          -- a group is not empty: its end does not depend on where it is entered
          have hne : ∀ l : List Insn, pathEnd none l = some x → ∀ a, pathEnd a l = some x := by
            intro l hl a
            cases l with
            | nil => cases hl
            | cons i r => exact hl
          exact hne _ hx _

/-! ### The words -/

theorem upTo_mem {o : Out W Nat} {l : List (Fin W)} {x : Insn} (h : x ∈ upTo o l) :
    ∃ j, o.valid j = true ∧ x = ⟨o.pc j, o.insts j, o.pf j, o.dir j, o.next⟩ := by
  induction l with
  | nil => cases h
  | cons j r ih =>
    unfold upTo at h
    split at h
    · rename_i hv
      rw [List.mem_cons] at h
      rcases h with rfl | h
      · exact ⟨j, hv, rfl⟩
      · split at h
        · cases h
        · exact ih h
    · exact ih h

theorem lane_addr {pc : W32} {j : Nat} (h : pc.toNat % 64 / 4 + j < 16) :
    (pc + BitVec.ofNat 32 (j * 4)).toNat = pc.toNat + j * 4 := by
  have := pc.isLt
  rw [BitVec.toNat_add, BitVec.toNat_ofNat]
  omega

theorem lane_vpn {pc : W32} {j : Nat} (h : pc.toNat % 64 / 4 + j < 16) :
    (pc + BitVec.ofNat 32 (j * 4)).extractLsb' 12 20 = pc.extractLsb' 12 20 := by
  apply BitVec.eq_of_toNat_eq
  rw [BitVec.extractLsb'_toNat, BitVec.extractLsb'_toNat, lane_addr h, Nat.shiftRight_eq_div_pow, Nat.shiftRight_eq_div_pow]
  omega

theorem phys_toNat (p : ICache.Ppn) (pc : W32) : (phys p pc).toNat = p.toNat * 4096 + pc.toNat % 4096 := by
  unfold phys
  rw [BitVec.toNat_append, BitVec.extractLsb'_toNat, Nat.shiftRight_zero, Nat.shiftLeft_eq,
    Nat.mul_comm, ← Nat.two_pow_add_eq_or_of_lt]
  · omega

theorem lineOf_toNat (a : W32) : (lineOf a).toNat = a.toNat / 64 * 64 := by
  have := a.isLt
  have h : lineOf a = (a >>> 6) <<< 6 := by
    unfold lineOf
    apply BitVec.eq_of_getLsbD_eq
    intro i hi
    rw [BitVec.getLsbD_and, BitVec.getLsbD_not, BitVec.getLsbD_shiftLeft, BitVec.getLsbD_ushiftRight]
    by_cases h6 : i < 6
    · obtain (rfl | rfl | rfl | rfl | rfl | rfl) : i = 0 ∨ i = 1 ∨ i = 2 ∨ i = 3 ∨ i = 4 ∨ i = 5 := by omega
      all_goals simp
    · have : (63#32).getLsbD i = false := by
        rw [BitVec.getLsbD_ofNat]
        simp only [Nat.testBit_lt_two_pow (show 63 < 2 ^ i from Nat.lt_of_lt_of_le (by decide : 63 < 2 ^ 6)
          (Nat.pow_le_pow_right (by omega) (by omega))), Bool.and_false]
      rw [this]
      simp only [hi, h6, decide_true, Bool.not_false, Bool.and_true, decide_false, Bool.true_and]
      congr 1
      omega
  rw [h, BitVec.toNat_shiftLeft, BitVec.toNat_ushiftRight, Nat.shiftRight_eq_div_pow, Nat.shiftLeft_eq]
  omega

theorem lane_line {pc : W32} {j : Nat} (p : ICache.Ppn) (h : pc.toNat % 64 / 4 + j < 16) :
    lineOf (phys p (pc + BitVec.ofNat 32 (j * 4))) = lineOf (phys p pc) := by
  apply BitVec.eq_of_toNat_eq
  rw [lineOf_toNat, lineOf_toNat, phys_toNat, phys_toNat, lane_addr h]
  omega

/-- The instructions of a group with the right lanes are right. -/
theorem lanes_right {w : World} {o : Out W Nat} {pc : W32} (hpc : ∀ j : Fin W, o.pc j = pc + BitVec.ofNat 32 (j.val * 4))
    (hv : ∀ j : Fin W, o.valid j = decide (pc.toNat % 64 / 4 + j.val < 16)) (h : Lanes w pc o.insts o.pf o.valid) :
    ∀ x ∈ insnsOf o, Right w x := by
  intro x hx
  obtain ⟨j, hj, rfl⟩ := upTo_mem hx
  have hj' := hj
  rw [hv, decide_eq_true_eq] at hj'
  rcases h with ⟨h1, h2⟩ | ⟨p, l, h1, h2, h3⟩
  · left
    refine ⟨?_, h2 j hj⟩
    simp only [hpc, lane_vpn hj']
    exact h1
  · right
    refine ⟨p, l, ?_, ?_, (h3 j).2.1, ?_⟩
    · simp only [hpc, lane_vpn hj']; exact h1
    · simp only [hpc, lane_line p hj']; exact h2
    · intro k hk
      apply (h3 j).2.2
      simp only [hpc, lane_addr hj'] at hk
      omega

theorem frun_right [NeZero W] {k : Cfg} (hcap : k.ptabCap - 1 ≤ k.instCap)
    {tr : List (Ev W Nat)} {w : World} {s : Both W Nat} (h : FRun k tr w s) : ∀ x ∈ delivered tr, Right w x := by
  induction h with
  | init w => intro x hx; cases hx
  | @step tr w w' s s' resp o i h0 hok hw hc ih =>
    have hnew := FRun.step i h0 hok hw hc
    intro x hx
    cases hrf : i.refetch with
    | true => simp [delivered, hrf] at hx
    | false =>
      simp only [hrf, Bool.false_eq_true, if_false] at hnew
      have hww : w' = w := by
        have hfe : i.fenceI = false := by
          cases hf : i.fenceI with
          | false => rfl
          | true => rw [hok.fence hf] at hrf; cases hrf
        have h6 := hw.xlat hrf
        obtain ⟨h7, h8, h9⟩ := hw.data hfe
        cases w; cases w'
        simp only at h6 h7 h8 h9
        subst h6 h7 h8 h9
        rfl
      simp only [delivered, hrf, Bool.false_eq_true, if_false, Option.isSome_none, List.mem_append] at hx
      rcases hx with hx | hx
      · rw [hww]; exact ih x hx
      · cases ho : o.out with
        | none => simp [ho] at hx
        | some g =>
          simp only [ho, Option.map_some, Option.getD_some] at hx
          obtain ⟨_, hpc, hl⟩ := Props.C80_fetch hcap hnew g ho
          obtain ⟨q, hrun, _, _⟩ := Props.frun_run hnew
          obtain ⟨r, h4, h5, h6, h7, h8⟩ := Props.C74_words hcap hrun g ho
          have h9 : r.pc = want k.resetPc tr := by rw [h5, hpc 0]; simp
          exact lanes_right hpc (by intro j; rw [h8, frun_valid hnew r h4 j, h9]) hl x hx

end Verif.HandOff

import Verif.Proofs.FullCpuLib
/-
What the front end delivers: predictions that agree with the words.
-/
namespace Verif.FullCpuProofs
open Verif.Front Verif.HandOff Verif.Fetch
open Verif.FetchStream
open Verif.ICache (World)

variable {W : Nat}

/-- The prediction agrees with the word; a faulting one is a `nop`. -/
structure Tight (x : Insn) : Prop where
  taken : x.taken = true → IsJal x.word ∨ IsJalr x.word ∨ IsBranch x.word
  jal : IsJal x.word → x.taken = true ∧ x.next = jalTarget x.pc x.word
  nop : x.pf = true → x.word = instNop

theorem frun_nop {k : Cfg} {tr : List (Ev W Nat)} {w : World} {s : Both W Nat} (h : FRun k tr w s) :
    ∀ r ∈ answers tr, ∀ j : Fin W, r.pf j = true → r.insts j = instNop := by
  induction h with
  | init w => intro r hr; cases hr
  | @step tr w w' s s' resp o i _ hok hw hc ih =>
    intro r hr j
    rw [answers] at hr
    by_cases hc1 : (false || (if i.refetch then some i.refetchAddr else none).isSome) = true
    · rw [if_pos hc1] at hr; cases hr
    · rw [if_neg hc1, List.mem_append] at hr
      rcases hr with hr | hr
      · unfold Both.cycle at hc
        simp only [bind, Option.bind_eq_some_iff, pure, Option.some.injEq, Prod.mk.injEq] at hc
        obtain ⟨m, h1, ⟨f', o'⟩, h2, h3, h4, h5⟩ := hc
        rw [Option.mem_toList, ← h4] at hr
        obtain ⟨x, _, rfl⟩ := Option.map_eq_some_iff.mp hr
        simp only [ICache.glue]
        intro hp
        split at hp
        · rename_i hb
          rw [dif_pos hb]
          cases hx : x.2 with
          | none => rfl
          | some l => rw [hx] at hp; cases hp
        · cases hp
      · exact ih r hr j

/-- The instructions of a group are its valid lanes with none predicted taken before them. -/
theorem insns_mem {o : Out W Nat} {x : Insn} (h : x ∈ insnsOf o) :
    ∃ j, o.valid j = true ∧ (∀ i, i < j → o.valid i = true → o.dir i = false) ∧ x = ⟨o.pc j, o.insts j, o.pf j, o.dir j, o.next⟩ := by
  rw [← insnsOf_cut, insnsOf] at h
  obtain ⟨j, hj, rfl⟩ := upTo_mem h
  simp only [cut, cutValid, Bool.and_eq_true, List.all_eq_true, List.mem_finRange, forall_const] at hj
  refine ⟨j, hj.1, fun i hi hv => ?_, rfl⟩
  have := hj.2 i
  simpa [hi, hv] using this

theorem frun_tight [NeZero W] {k : Cfg} (hcap : k.ptabCap - 1 ≤ k.instCap) (hline : k.line = 64#32) (hW : W * 4 ≤ 64)
    {tr : List (Ev W Nat)} {w : World} {s : Both W Nat} (h : FRun k tr w s) : ∀ x ∈ delivered tr, Tight x := by
  induction h with
  | init w => intro x hx; cases hx
  | @step tr w w' s s' resp o i h0 hok hw hc ih =>
    have hnew := FRun.step i h0 hok hw hc
    intro x hx
    have h0 : 0 < W := Nat.pos_of_ne_zero (NeZero.ne W)
    simp only [delivered] at hx
    split at hx
    · cases hx
    · rcases List.mem_append.1 hx with hx | hx
      · exact ih x hx
      · cases ho : o.out with
        | none => rw [ho] at hx; cases hx
        | some g =>
          rw [ho] at hx
          obtain ⟨q, hrun, _, _⟩ := Props.frun_run hnew
          obtain ⟨r, h4, h5, h6, h7, h8⟩ := Props.C74_words hcap hrun g ho
          have hg := Props.C71_group hcap 6 hline (by omega) hW hrun g ho
          obtain ⟨j, hv, hb, rfl⟩ := insns_mem hx
          refine ⟨fun ht => (hg.taken j ht).2, fun hj => ?_, fun hp => ?_⟩
          · have hd := hg.jump j hv (.inl hj)
            refine ⟨hd, hg.jal j hd (fun i hi => ?_) hj⟩
            cases hdi : g.dir i with
            | false => rfl
            | true => rw [← hdi]; exact hb i hi (hg.taken i hdi).1
          · have := frun_nop hnew r h4 j
            rw [h7] at hp
            rw [h6]
            exact this hp

end Verif.FullCpuProofs

import Verif.Props.Front
import Verif.Props.Decode
/-
C71, seen from the branch unit: a `jal` owns no branch tag (`is_branch`, back-end/include/util.h:111), so the core could not
recover from a mispredicted one.  It never has to.
-/
namespace Verif.Props
open Verif.Front Verif.FetchStream Verif.Decode

variable {W : Nat} {M : Type}

/-- What a `jal` decodes to, as far as the branch unit is concerned. -/
theorem jal_fields (w : BitVec 32) (h : IsJal w) :
    (decode w).type = .jal ∧ (decode w).src1En = false ∧ (decode w).imm = Isa.ofBits (Isa.immJBit w) := by
  have h' : w.extractLsb' 0 7 = 0b1101111#7 := h
  obtain ⟨u, hu⟩ : ∃ u, decodeOpcode w (decodeFields w) = u := ⟨_, rfl⟩
  have h1 : u.type = .jal ∧ u.src1En = false ∧ u.imm = (immJ w).setWidth 32 := by
    rw [← hu, decodeOpcode, h']; exact ⟨rfl, rfl, rfl⟩
  rw [decode, hu, decodeFinish]
  simp only [h1.1]
  refine ⟨?_, ?_, ?_⟩
  · split <;> split <;> simp_all
  · split <;> split <;> simp_all
  · rw [← ImmLemmas.immJ_eq]; split <;> split <;> simp_all

/-- C71: executing a `jal` of a group handed over, with the direction and the next address handed over with it, the branch unit
goes to the encoded target and finds no misprediction. -/
theorem C71_jal_never_mispredicts [NeZero W] {k : Cfg} (hcap : k.ptabCap - 1 ≤ k.instCap) (l : Nat)
    (hline : k.line = BitVec.ofNat 32 (2 ^ l)) (hl : l < 32) (hW : W * 4 ≤ 2 ^ l) {tr : List (Ev W M)} {e : Ev W M}
    {s : St W M} {q : List W32} (h : Run k (e :: tr) s q) (g : Out W M) (hg : e.out = some g)
    (j : Fin W) (hv : g.valid j = true) (hfirst : ∀ j' < j, g.dir j' = false) (hj : IsJal (g.insts j))
    (regs : Nat → BitVec 32) :
    execBr (g.insts j) (g.pc j) regs (g.dir j) g.next = some ⟨true, jalTarget (g.pc j) (g.insts j), false⟩ := by
  have ok := C71_group hcap l hline hl hW h g hg
  have hd := ok.jump j hv (Or.inl hj)
  have hn := ok.jal j hd hfirst hj
  obtain ⟨t1, t2, t3⟩ := jal_fields (g.insts j) hj
  rw [execBr, decompose, t1]
  have e1 : ((Iq.int == Iq.br) = false) := rfl
  have e2 : ((Iq.br == Iq.br) = true) := rfl
  simp only [List.find?, e1, e2, Option.map, hd, hn, MicroOp.toInst, Fu.bru, Fu.bruTaken, Fu.bruTarget, jalTarget, t2, t3]
  simp

open FrontRun in
/-- The run beside C71: the group that ends in a `jal` the predictors had missed. -/
example : ∃ y e tr g, go (script.take 3) ([], St.init k, []) = some y ∧ Run k y.1 y.2.1 y.2.2 ∧ y.1 = e :: tr ∧
    e.out = some g ∧ g.valid 1 = true ∧ g.dir 0 = false ∧ IsJal (g.insts 1) := by
  have ho : (go (script.take 3) ([], St.init k, [])).bind (fun y => (y.1.head?.bind (·.out)).map
      (fun g => (g.valid 1, g.dir 0, g.insts 1))) = some (true, false, 0x0100006F#32) := by decide +kernel
  obtain ⟨y, hy, h1⟩ := Option.bind_eq_some_iff.1 ho
  obtain ⟨g, hg, h2⟩ := Option.map_eq_some_iff.1 h1
  obtain ⟨e, he, h3⟩ := Option.bind_eq_some_iff.1 hg
  obtain ⟨tr, htr⟩ : ∃ tr, y.1 = e :: tr := by
    cases hy1 : y.1 with
    | nil => rw [hy1] at he; cases he
    | cons a b => rw [hy1] at he; cases he; exact ⟨b, rfl⟩
  simp only [Prod.mk.injEq] at h2
  exact ⟨y, e, tr, g, hy, go_run .init hy, htr, h3, h2.1, h2.2.1, by rw [h2.2.2]; unfold IsJal opcode; decide⟩

end Verif.Props

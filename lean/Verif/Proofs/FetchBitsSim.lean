import Verif.Proofs.ICacheTopSim
import Verif.Spec.FetchBitsRun

/-
The front end with its packed instruction cache does what the front end with the cache of Model/ICache does.
-/
namespace Verif.ICacheBits
open Verif.ICache
open Verif.Fetch
open Verif.FetchStream (Ev)
open Verif.Front (Cfg St Inp Obs Resp front1 front2 gRefetch)

theorem page_back (p : Ppn) (x : BitVec 12) : ((p ++ x) >>> 12).setWidth 20 = p := by
  apply BitVec.eq_of_getLsbD_eq
  intro n hn
  simp only [BitVec.getLsbD_setWidth, BitVec.getLsbD_ushiftRight, BitVec.getLsbD_append, hn, decide_true, Bool.true_and]
  rw [if_neg (by omega), Nat.add_sub_cancel_left]

theorem vpn_back (v : Ppn) : vpnOf (v.setWidth 32 <<< 12) = v := by
  apply BitVec.eq_of_getLsbD_eq
  intro n hn
  simp only [vpnOf, BitVec.getLsbD_extractLsb', BitVec.getLsbD_shiftLeft, BitVec.getLsbD_setWidth, hn, decide_true, Bool.true_and,
    Nat.add_sub_cancel_left]
  have h1 : 12 + n < 32 := by omega
  have h2 : ¬12 + n < 12 := by omega
  have h3 : n < 32 := by omega
  simp [h1, h2, h3]

/-- Nothing is lost on the wires. -/
theorem onWires_abs (t : TopIn) (x : Junk) : (onWires t x).abs = t := by
  obtain ⟨refetch, fenceI, inval, req, mmu, mReady, mAcc, mResp, probe⟩ := t
  unfold onWires RTop.abs
  dsimp only
  congr 1
  · cases req <;> rfl
  · funext v
    rw [vpn_back]
    cases mmu v with
    | none => rfl
    | some z =>
      cases z with
      | fault => rfl
      | page p => simp only [page_back]
  · cases mAcc with
    | none => rfl
    | some u => simp only [Option.isSome_some, if_true, txn_ofNat]
  · cases mResp with
    | none => rfl
    | some u => obtain ⟨a, d⟩ := u; simp only [Option.isSome_some, if_true, txn_ofNat]
  · cases probe with
    | none => rfl
    | some u => cases u <;> rfl

variable {W : Nat} {M : Type}

/-- The two systems side by side. -/
structure RelB (s : PBoth W M) (a : Both W M) : Prop where
  f : a.f = s.f
  e : a.ic.e = s.ic.e
  c : Rel s.ic.c a.ic.c

theorem okIn_env {w : World} {s : PBoth W M} {a : Both W M} (h : RelB s a) (i : In W M) : OkIn w s.env i ↔ OkIn w a i := by
  constructor
  · rintro ⟨h1, h2, h3, h4, h5⟩
    exact ⟨h1, by rw [h.e]; exact h2, by rw [h.e]; exact h3, by rw [h.e]; exact h4, h5⟩
  · rintro ⟨h1, h2, h3, h4, h5⟩
    rw [h.e] at h2 h3 h4
    exact ⟨h1, h2, h3, h4, h5⟩

/-- A cycle of one is a cycle of the other. -/
theorem cycle_sim (k : Cfg) {s : PBoth W M} {a : Both W M} (h : RelB s a) (i : In W M) (x y : Junk) :
    (s.cycle k i x y = none ∧ a.cycle k i = none) ∨
    ∃ s' a' resp o, s.cycle k i x y = some (s', resp, o) ∧ a.cycle k i = some (a', resp, o) ∧ RelB s' a' := by
  obtain ⟨f, ⟨c, e⟩⟩ := s
  obtain ⟨f', ⟨c', e'⟩⟩ := a
  obtain ⟨h1, h2, h3⟩ := h
  dsimp only at h1 h2 h3
  subst h1 h2
  unfold PBoth.cycle Both.cycle
  dsimp only
  rw [peek_sim W h3]
  simp only [Option.bind_eq_bind, Option.bind_some]
  rw [show pInp i (peek c' i.hold) = i.front ⟨f', ⟨c', e'⟩⟩ from rfl]
  cases hm : front1 k f' (i.front ⟨f', ⟨c', e'⟩⟩) with
  | none => exact .inl ⟨rfl, rfl⟩
  | some m =>
    simp only [Option.bind_some]
    have hn : ∀ b, call1 e' (pCyc i (gRefetch f' (i.front ⟨f', ⟨c', e'⟩⟩)) m.icReq) = call1 e' (i.cache ⟨f', ⟨c', e'⟩⟩ m.icReq b) := fun _ => rfl
    have hn2 : ∀ b, call2 e' (pCyc i (gRefetch f' (i.front ⟨f', ⟨c', e'⟩⟩)) m.icReq) = call2 e' (i.cache ⟨f', ⟨c', e'⟩⟩ m.icReq b) := fun _ => rfl
    have he : ∀ b o, e'.next (pCyc i (gRefetch f' (i.front ⟨f', ⟨c', e'⟩⟩)) m.icReq) o = e'.next (i.cache ⟨f', ⟨c', e'⟩⟩ m.icReq b) o := fun _ _ => rfl
    obtain ⟨c1, g, hr, hR, ho, hg⟩ := rcall_sim W h3 (onWires (call1 e' (pCyc i (gRefetch f' (i.front ⟨f', ⟨c', e'⟩⟩)) m.icReq)) x)
    rw [onWires_abs] at hR ho hg
    rw [hr]
    simp only [Option.bind_some]
    have hq : ((Sys.cycle ⟨c', e'⟩ (i.cache ⟨f', ⟨c', e'⟩⟩ m.icReq false)).2.resp.map fun x => glue W x.1 x.2) = g.resp := by
      rw [hg, hn false]
      rfl
    rw [hq]
    cases hf : front2 k f' (i.front ⟨f', ⟨c', e'⟩⟩) m g.resp with
    | none => exact .inl ⟨rfl, rfl⟩
    | some z =>
      obtain ⟨f2, o⟩ := z
      simp only [Option.bind_some]
      right
      cases hi : o.inval with
      | false =>
        refine ⟨_, _, _, _, by rw [if_neg (by simp)]; rfl, rfl, ⟨rfl, ?_, ?_⟩⟩
        · show (Sys.cycle ⟨c', e'⟩ (i.cache ⟨f', ⟨c', e'⟩⟩ m.icReq false)).1.e = _
          dsimp only
          rw [ho, he false, hn false]
          rfl
        · rw [hn false] at hR
          exact hR
      | true =>
        obtain ⟨c2, g2, hr2, hR2, ho2, _⟩ := rcall_sim W hR (onWires (call2 e' (pCyc i (gRefetch f' (i.front ⟨f', ⟨c', e'⟩⟩)) m.icReq)) y)
        rw [onWires_abs] at hR2 ho2
        rw [if_pos rfl, hr2]
        refine ⟨_, _, _, _, rfl, rfl, ⟨rfl, ?_, ?_⟩⟩
        · show (Sys.cycle ⟨c', e'⟩ (i.cache ⟨f', ⟨c', e'⟩⟩ m.icReq true)).1.e = _
          dsimp only
          rw [ho2, he true, hn true, hn2 true]
          rfl
        · rw [hn true, hn2 true] at hR2
          exact hR2

theorem prun_sim {k : Cfg} {tr : List (Ev W M)} {w : World} {s : PBoth W M} (h : PRun k tr w s) :
    ∃ a, FRun k tr w a ∧ RelB s a := by
  induction h with
  | init w => exact ⟨_, .init w, rfl, rfl, rel_init⟩
  | step i x y _ hok hw hc ih =>
    obtain ⟨a, ha, hr⟩ := ih
    rcases cycle_sim k hr i x y with ⟨h1, _⟩ | ⟨s', a', resp, o, h1, h2, h3⟩
    · rw [h1] at hc; cases hc
    · rw [h1] at hc
      cases hc
      exact ⟨a', .step i ha ((okIn_env hr i).mp hok) hw h2, h3⟩

/-- And the other way round: nothing the other system does is lost. -/
theorem frun_sim {k : Cfg} {tr : List (Ev W M)} {w : World} {a : Both W M} (h : FRun k tr w a) :
    ∃ s, PRun k tr w s ∧ RelB s a := by
  induction h with
  | init w => exact ⟨_, .init w, rfl, rfl, rel_init⟩
  | step i _ hok hw hc ih =>
    obtain ⟨s, hs, hr⟩ := ih
    rcases cycle_sim k hr i {} {} with ⟨_, h1⟩ | ⟨s', a', resp, o, h1, h2, h3⟩
    · rw [h1] at hc; cases hc
    · rw [h2] at hc
      cases hc
      exact ⟨s', .step i {} {} hs ((okIn_env hr i).mpr hok) hw h1, h3⟩

end Verif.ICacheBits

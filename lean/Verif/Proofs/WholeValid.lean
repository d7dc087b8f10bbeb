import Verif.Proofs.WholeSim
import Verif.Props.Rob
/-
What `Core` assumes of its environment holds of the composed stages.
-/
namespace Verif.WholeProofs
open Verif.Spine Verif.Whole Verif.SpineProofs
open Verif.Core (W Sem Isa Item Fetched Task)
open Verif.BranchWindow (Flight)
open Verif.RenWindow (Entry toEntry entries)
open Verif.RobQueue (insts sig)
open Verif.DispatchGroup (waiting)
open Verif.Props (rob_ids C106_ordered)

variable {n : Nat} {M : Type} {prog : W → Sem M}
variable {k : Cfg} {s : State n M} {c : Input n M}
variable {bw : BranchWindow.Sys n} {rw : RenWindow.Sys} {Z : List (Flight n × Sig)} {g : Nat → BitVec 3}

/-- The renamed instructions in flight, as flights. -/
def flights (s : State n M) (Z : List (Flight n × Sig)) : List (Flight n) :=
  Z.map Prod.fst ++ (waiting s.sp.dis).map (disF s.sp.info)

theorem flights_mem (hl : Link k s.sp bw rw Z g) {f : Flight n} (hf : f ∈ flights s Z) : f ∈ bw.win := by
  rw [hl.win]; exact List.mem_append_left _ hf

theorem ids_flights (hl : Link k s.sp bw rw Z g) : ids k s = (flights s Z).map (·.seq) := by
  rw [ids_seq hl, flights, List.map_append, List.map_map, List.map_map]; rfl

theorem tasks_flights (hl : Link k s.sp bw rw Z g) :
    (coreOf s rw (ids k s)).tasks = (flights s Z).map (fun f => taskOf s (ent s.sp.info f) f.seq) := by
  show List.zipWith (taskOf s) rw.win (ids k s) = _
  have : rw.win = (flights s Z).map (ent s.sp.info) := by
    rw [hl.rwin, flights, List.map_append, List.map_map, List.map_map]; rfl
  rw [ids_flights hl, this, List.zipWith_map, List.zipWith_self]

/-- An instruction that retires without being interrupted is complete. -/
theorem retired_complete (hk : Good k) (hl : Link k s.sp bw rw Z g) (hint : interrupt s.sp c.hw = false) {v : Rob.Uop}
    (hv : v ∈ Spine.retired s.sp c.hw) : Rob.complete v = true := by
  obtain ⟨W, hW⟩ := Proofs.Rob.rinv_reach hk.lines hl.qr
  rcases Proofs.Rob.arbitrate_cases (s.sp.rob.rows s.sp.rob.deq) (Rob.isEmpty s.sp.rob) (robIn0 s.sp c.hw).mispred.isSome
    (robIn0 s.sp c.hw).frontStall (robIn0 s.sp c.hw).intReq (robIn0 s.sp c.hw).storePending with
    e | ⟨e, _, _, hall, _⟩ | ⟨b, u, int, e1, e2, _, _, hc⟩
  · change Rob.decision s.sp.rob (robIn0 s.sp c.hw) = _ at e
    unfold Spine.retired RobQueue.retired at hv
    rw [e] at hv; cases hv
  · change Rob.decision s.sp.rob (robIn0 s.sp c.hw) = _ at e
    unfold Spine.retired RobQueue.retired at hv
    rw [e] at hv
    obtain ⟨o, ho, he⟩ := List.mem_filterMap.1 hv
    rw [List.all_eq_true] at hall
    have := hall o ho
    rw [show o = some v from he] at this
    simpa using this
  · change Rob.decision s.sp.rob (robIn0 s.sp c.hw) = _ at e1
    unfold interrupt at hint
    rw [e1] at hint
    unfold Spine.retired RobQueue.retired at hv
    rw [e1] at hv
    have hr := (Proofs.Rob.firstValid_some e2).1
    simp only [Rob.commits, hr] at hv
    have : v = u := by simpa using hv
    subst this
    exact hc hint

theorem retired_mem (hk : Good k) (hl : Link k s.sp bw rw Z g) {v : Rob.Uop} (hv : v ∈ Spine.retired s.sp c.hw) :
    v ∈ insts k.L s.sp.rob := by
  obtain ⟨_, _, rest, _, hins, _⟩ := hl.split hk c.hw
  rw [hins]; exact List.mem_append_left _ hv

theorem rob_mem_ids {v : Rob.Uop} (hv : v ∈ insts k.L s.sp.rob) : v.id ∈ ids k s :=
  List.mem_append_left _ (List.mem_map_of_mem hv)

theorem expect_bit (hl : Link k s.sp bw rw Z g) {v : Rob.Uop} (hv : v ∈ insts k.L s.sp.rob)
    (ht : (s.sp.info v.id).tag.isSome = true) : v.expect.getLsbD 1 = true := by
  obtain ⟨z, hz, he⟩ := List.mem_map.1 (show sig v ∈ Z.map Prod.snd by rw [← hl.sigs]; exact List.mem_map_of_mem hv)
  obtain ⟨t, ht⟩ := Option.isSome_iff_exists.1 ht
  have hid : z.2.1 = v.id := congrArg Prod.fst he
  have hex : z.2.2.2.2.2 = v.expect := congrArg (fun x : Sig => x.2.2.2.2) he
  rw [← hex]; exact (hl.j z hz).expect t (by rw [hid]; exact ht)

theorem flush_type {v : Rob.Uop} (h : flushTy v.ty = true) : Rob.isFlush v = true := by
  unfold flushTy at h
  unfold Rob.isFlush
  split at h <;> simp_all

/-- The tasks that retire. -/
theorem retired_tasks (hk : Good k) (hl : Link k s.sp bw rw Z g) {t : Task}
    (ht : t ∈ Core.retired (coreOf s rw (ids k s)) (cycOf k s c)) :
    ((Spine.retired s.sp c.hw).any Rob.isExc = false ∧ interrupt s.sp c.hw = false) ∧
      ∃ v ∈ Spine.retired s.sp c.hw, t = taskOf s t.e v.id := by
  unfold Core.retired at ht
  by_cases hx : ((cycOf k s c).exc || (cycOf k s c).interrupt) = true
  · rw [if_pos hx] at ht; cases ht
  · rw [if_neg hx] at ht
    refine ⟨?_, ?_⟩
    · have : ((Spine.retired s.sp c.hw).any Rob.isExc || interrupt s.sp c.hw) = false := by rw [← Bool.not_eq_true]; exact hx
      exact Bool.or_eq_false_iff.1 this
    · have hr := retired_ids hk hl c
      rw [ids_flights hl, ← List.map_take] at hr
      rw [tasks_flights hl, ← List.map_take] at ht
      obtain ⟨f, hf, rfl⟩ := List.mem_map.1 ht
      have : f.seq ∈ (Spine.retired s.sp c.hw).map (·.id) := by
        rw [hr]; exact List.mem_map_of_mem (f := fun f : Flight n => f.seq) hf
      obtain ⟨v, hv, he⟩ := List.mem_map.1 this
      exact ⟨v, hv, by rw [he]; rfl⟩

theorem core_valid (hk : Good k) (hi : Inv prog k s) (hl : Link k s.sp bw rw Z g) (hv : Valid prog k s c) :
    Core.Valid prog k.P k.A n (coreOf s rw (ids k s)) (cycOf k s c) where
  ren := by
    obtain ⟨_, _, h⟩ := link_step_valid hk hl hv.hw
    rw [input_eq hv]; exact h
  done := by
    intro t ht
    obtain ⟨⟨hx, hint⟩, v, hvr, he⟩ := retired_tasks hk hl ht
    have hmem := retired_mem hk hl hvr
    have hc := retired_complete hk hl hint hvr
    have hxv : Rob.isExc v = false := by
      cases h : Rob.isExc v with
      | false => rfl
      | true => rw [List.any_eq_false] at hx; exact absurd h (hx v hvr)
    rw [he]
    refine ⟨hv.ran v hmem hc hxv (fun _ => hvr), fun hb => ?_⟩
    have htag : (s.sp.info v.id).tag.isSome = true := by rw [hi.br _ (rob_mem_ids hmem)]; exact hb
    have hbit : v.cplt.getLsbD 1 = true := by
      have : v.cplt = v.expect := by simpa [Rob.complete] using hc
      rw [this]; exact expect_bit hl hmem htag
    rcases (hi.rep v hmem htag hbit).2 with e | ⟨hm, _⟩
    · exact e
    · rw [(mis_quiet (c := c.hw) hl hk.lines hm).2] at hvr; cases hvr
  serial := by
    intro pre t post hr hs
    have ht : t ∈ Core.retired (coreOf s rw (ids k s)) (cycOf k s c) := by rw [hr]; simp
    obtain ⟨_, v, hvr, he⟩ := retired_tasks hk hl ht
    have hmem := retired_mem hk hl hvr
    have hs' : (prog (s.pay v.id).1).serial = true := by rw [he] at hs; exact hs
    have hfl := flush_type (hi.rser v hmem hs')
    obtain ⟨h1, h2⟩ := Props.C17_precise hk.lines hl.qr (robIn0 s.sp c.hw)
    have hone : Spine.retired s.sp c.hw = [v] := (h1 v hvr (.inl hfl)).1
    refine ⟨?_, h2.2 ⟨v, hvr, .inl hfl⟩⟩
    have hlen : (Core.retired (coreOf s rw (ids k s)) (cycOf k s c)).length ≤ 1 := by
      unfold Core.retired
      split
      · simp
      · rw [List.length_take]
        have : (cycOf k s c).retire = 1 := by show (Spine.retired s.sp c.hw).length = 1; rw [hone]; rfl
        omega
    rw [hr, List.length_append, List.length_cons] at hlen
    exact List.eq_nil_of_length_eq_zero (by omega)
  mispred := by
    intro t ht κ hκ hκt
    have hm : s.sp.idu.latch.mispred = true := by
      cases h : s.sp.idu.latch.mispred with
      | true => rfl
      | false => simp [cycOf, mispred, h] at ht
    have htid : t = s.sp.idu.latch.brId := by simp [cycOf, mispred, hm] at ht; exact ht.symm
    rw [tasks_flights hl] at hκ
    obtain ⟨f, hf, rfl⟩ := List.mem_map.1 hκ
    have hft : f.tag = some s.sp.idu.latch.brId := by rw [← htid]; exact hκt
    obtain ⟨z, hz, hzt, hzr⟩ := hl.mis hm
    have hseq := hl.core.uniq _ (flights_mem hl hf) _ (hl.memZ hz) _ hft hzt
    obtain ⟨v, hvm, hsv⟩ := List.mem_map.1 (show z.2 ∈ (insts k.L s.sp.rob).map sig by
      rw [hl.sigs]; exact List.mem_map_of_mem hz)
    have hid : z.1.seq = v.id := by rw [(hl.j z hz).seq, ← hsv]; rfl
    have hix : v.robIdx = s.sp.redirect := by rw [← hzr, ← hsv]; rfl
    obtain ⟨hb, htg⟩ := hi.mis hm v hvm hix
    show s.done f.seq = true
    rw [hseq, hid]
    exact (hi.rep v hvm htg hb).1
  path := by
    intro h
    have hslots : Ren.renameGroup k.P rw.regs rw.insts = renSlots k s.sp := by rw [hl.regs, hl.latch]; rfl
    have hr : renReady k s.sp c.hw = true := by
      have h : Ren.readyOut (Ren.renameGroup k.P rw.regs rw.insts) (disOut k s.sp c.hw).ready (flush s.sp c.hw) (mispred s.sp) = true := h
      rw [hslots] at h; exact h
    show Core.Path s.expect (if renReady k s.sp c.hw then fetched k s c else [])
    rw [if_pos hr]; exact hv.path hr
  plain := by
    intro f hf
    have hf : some f ∈ (if renReady k s.sp c.hw then fetched k s c else []) := hf
    split at hf
    · rename_i hr; exact hv.plain hr f hf
    · cases hf

end Verif.WholeProofs

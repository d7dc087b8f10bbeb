import Verif.Proofs.SpineLib
/-
The stages of the in-order back end supply each other with the inputs their closed models assume.
-/
namespace Verif.SpineProofs
open Verif.Spine
open Verif.Decode (DecInst decodeEntry)
open Verif.Dispatch (expectMask)
open Verif.BranchWindow (Flight)
open Verif.RenWindow (Entry toEntry entries)
open Verif.RobQueue (insts sig)
open Verif.DispatchGroup (waiting)

variable {n : Nat}

abbrev Sig := Nat × Nat × Bool × Rob.Ty × BitVec 3

/-- An instruction in the reorder buffer (`z.2`) as an entry of the branch window (`z.1`): an unresolved branch still owns
its tag, a resolved one has given it up or is giving it up. -/
structure J (s : St n) (g : Nat → BitVec 3) (z : Flight n × Sig) : Prop where
  seq : z.1.seq = z.2.1
  tag : z.1.tag = none ∨ z.1.tag = (s.info z.2.1).tag
  expect : ∀ t, (s.info z.2.1).tag = some t → z.2.2.2.2.2.getLsbD 1 = true
  owns : ∀ t, (s.info z.2.1).tag = some t → (g z.2.2.1).getLsbD 1 = false → z.1.tag = some t
  gone : ∀ t, (s.info z.2.1).tag = some t → (g z.2.2.1).getLsbD 1 = true → z.1.tag = none ∨ s.idu.latch.clear.getLsbD t = true

/-- The stages' states and the windows of their closed models. -/
structure Link (k : Cfg) (s : St n) (bw : BranchWindow.Sys n) (rw : RenWindow.Sys) (Z : List (Flight n × Sig))
    (g : Nat → BitVec 3) : Prop where
  br : BranchWindow.Reach n k.maxBr bw
  rr : RenWindow.Reach k.P k.A n rw
  dr : DispatchGroup.Reach k.dis k.dis.banks s.dis
  qr : RobQueue.Reach k.dis.banks k.L s.rob
  done : Proofs.Rob.Done k.dis.banks s.rob g
  idu : bw.idu = s.idu
  next : bw.next = s.next
  regs : rw.regs = s.regs
  latch : rw.insts = s.lat.map (Option.map toInst)
  win : bw.win = Z.map Prod.fst ++ (waiting s.dis).map (disF s.info) ++ (s.lat.filterMap id).map latF
  rwin : rw.win = Z.map (fun z => ent s.info z.1) ++ (waiting s.dis).map (fun u => s.info u.ftq)
  sigs : (RobQueue.insts k.L s.rob).map sig = Z.map Prod.snd
  j : ∀ z ∈ Z, J s g z
  own : ∀ t, 0 < t → s.idu.latch.clear.getLsbD t = true →
    ∃ z ∈ Z, z.1.tag = some t ∧ (g z.2.2.1).getLsbD 1 = true
  mis : s.idu.latch.mispred = true → ∃ z ∈ Z, z.1.tag = some s.idu.latch.brId ∧ z.2.2.1 = s.redirect
  dinfo : ∀ u ∈ waiting s.dis, (s.info u.ftq).tag.isSome = isBranch u.dec
  latLen : s.lat.length = k.dis.banks
  disLen : s.dis.slots.length = k.dis.banks

/-! ### The reorder buffer -/

theorem rob_inj {B L : Nat} {s : Rob.State} {W} (h : Proofs.Rob.RInv B L s W) :
    (insts L s).Pairwise (fun u v => u.robIdx ≠ v.robIdx) := by
  refine (Proofs.Rob.age_pairwise h).imp ?_
  intro u v hp he
  have := hp.1
  simp only [RobQueue.younger, he, Nat.lt_irrefl, decide_false] at this
  split at this <;> simp at this

theorem done_mem {B L : Nat} {s : Rob.State} {W g} (h : Proofs.Rob.RInv B L s W) (hd : Proofs.Rob.Done B s g) {u : Rob.Uop}
    (hu : u ∈ insts L s) : u.cplt = g u.robIdx := by
  rw [Proofs.Rob.rinv_insts h] at hu
  obtain ⟨row, hrow, huin⟩ := Proofs.Rob.mem_content.1 hu
  rw [← h.win] at hrow
  obtain ⟨k, hk, rfl⟩ := (Ring.mem_ring L s.rows _ _ h.deqLt).1 hrow
  obtain ⟨b, hb⟩ := List.mem_iff_getElem?.1 huin
  have hbB : b < B := by
    have := (List.getElem?_eq_some_iff.1 hb).1
    rw [h.rowLen] at this; exact this
  rw [(h.loc k hk b u hb).1, ← hd _ b u hbB hb]

theorem sig_inj {L : Nat} {s : Rob.State} (hp : (insts L s).Pairwise (fun u v => u.robIdx ≠ v.robIdx))
    {Z : List (Flight n × Sig)} (hs : (insts L s).map sig = Z.map Prod.snd) :
    Z.Pairwise (fun x y => x.2.2.1 ≠ y.2.2.1) := by
  have h1 : ((insts L s).map (fun u => (sig u).2.1)).Pairwise (· ≠ ·) := by
    rw [List.pairwise_map]; exact hp
  have h2 : (insts L s).map (fun u => (sig u).2.1) = Z.map (fun z => z.2.2.1) := by
    have := congrArg (List.map fun x : Sig => x.2.1) hs
    simpa [List.map_map, Function.comp_def] using this
  rw [h2, List.pairwise_map] at h1
  exact h1

theorem pair_inj {α : Type} {f : α → Nat} {l : List α} (h : l.Pairwise (fun x y => f x ≠ f y)) {a b : α} (ha : a ∈ l)
    (hb : b ∈ l) (he : f a = f b) : a = b := by
  induction l with
  | nil => cases ha
  | cons x l ih =>
    rw [List.pairwise_cons] at h
    rcases List.mem_cons.1 ha with e1 | e1 <;> rcases List.mem_cons.1 hb with e2 | e2
    · rw [e1, e2]
    · subst e1; exact absurd he (h.1 b e2)
    · subst e2; exact absurd he.symm (h.1 a e1)
    · exact ih h.2 e1 e2

section
variable {k : Cfg} {s : St n} {bw : BranchWindow.Sys n} {rw : RenWindow.Sys} {Z : List (Flight n × Sig)} {g : Nat → BitVec 3}

theorem Link.core (h : Link k s bw rw Z g) : IduProofs.Core s.idu bw.win s.next := by
  have := (IduProofs.inv_reach h.br).core
  rw [h.idu, h.next] at this; exact this

theorem Link.memZ (h : Link k s bw rw Z g) {z} (hz : z ∈ Z) : z.1 ∈ bw.win := by
  rw [h.win, List.append_assoc]
  exact List.mem_append_left _ (List.mem_map_of_mem hz)

/-- A branch that has not been reported is not in the latched mask. -/
theorem Link.quiet (h : Link k s bw rw Z g) {f : Flight n} (hf : f ∈ bw.win) {t : Nat} (ht : f.tag = some t)
    (hn : ∀ z ∈ Z, z.1 = f → (g z.2.2.1).getLsbD 1 = false) : s.idu.latch.clear.getLsbD t = false := by
  cases hc : s.idu.latch.clear.getLsbD t with
  | false => rfl
  | true =>
    have hp := (h.core.tag_pos hf ht).1
    obtain ⟨z, hz, hzt, hg⟩ := h.own t hp hc
    have he := IduProofs.seq_inj h.core.sorted (h.memZ hz) hf (h.core.uniq _ (h.memZ hz) _ hf t hzt ht)
    have := hn z hz he
    rw [hg] at this; cases this

theorem Link.seqZ (h : Link k s bw rw Z g) {f : Flight n}
    (hf : f ∈ (waiting s.dis).map (disF s.info) ++ (s.lat.filterMap id).map latF) : ∀ z ∈ Z, z.1.seq < f.seq := by
  intro z hz
  have := h.core.sorted
  rw [h.win, List.append_assoc, List.pairwise_append] at this
  exact this.2.2 _ (List.mem_map_of_mem hz) _ hf

/-- Branches before dispatch keep their tag. -/
theorem Link.young (h : Link k s bw rw Z g) {f : Flight n}
    (hf : f ∈ (waiting s.dis).map (disF s.info) ++ (s.lat.filterMap id).map latF) {t : Nat} (ht : f.tag = some t) :
    s.idu.latch.clear.getLsbD t = false := by
  refine h.quiet (by rw [h.win, List.append_assoc]; exact List.mem_append_right _ hf) ht ?_
  intro z hz he
  have := h.seqZ hf z hz
  rw [he] at this; omega

theorem survive_young (h : Link k s bw rw Z g) {f : Flight n}
    (hf : f ∈ (waiting s.dis).map (disF s.info) ++ (s.lat.filterMap id).map latF) :
    BranchWindow.survive (Idu.combBranch s.idu) f = { f with mask := f.mask &&& ~~~s.idu.latch.clear } := by
  unfold BranchWindow.survive
  rw [IduProofs.bcast_clear]
  congr 1
  cases ht : f.tag with
  | none => rfl
  | some t => simp [h.young hf ht]

/-- A report of a live branch. -/
theorem Link.report (h : Link k s bw rw Z g) (hL : 0 < k.L) {u : Rob.Uop} (hu : u ∈ insts k.L s.rob) {t : Nat}
    (ht : (s.info u.id).tag = some t) (hc : u.cplt.getLsbD 1 = false) :
    ∃ z ∈ Z, z.2 = sig u ∧ z.1.tag = some t ∧ (g z.2.2.1).getLsbD 1 = false ∧ s.idu.latch.clear.getLsbD t = false ∧
      (s.info z.2.1).tag = some t ∧ 0 < t ∧ t < n ∧ Rob.complete u = false := by
  obtain ⟨W, hW⟩ := Proofs.Rob.rinv_reach hL h.qr
  have hm : sig u ∈ Z.map Prod.snd := by rw [← h.sigs]; exact List.mem_map_of_mem hu
  obtain ⟨z, hz, he⟩ := List.mem_map.1 hm
  have hid : z.2.1 = u.id := congrArg Prod.fst he
  have hix : z.2.2.1 = u.robIdx := congrArg (fun x : Sig => x.2.1) he
  have hex : z.2.2.2.2.2 = u.expect := congrArg (fun x : Sig => x.2.2.2.2) he
  have hg : (g z.2.2.1).getLsbD 1 = false := by rw [hix, ← done_mem hW h.done hu]; exact hc
  have hJ := h.j z hz
  have ht' : (s.info z.2.1).tag = some t := by rw [hid]; exact ht
  have hzt := hJ.owns t ht' hg
  have hp := h.core.tag_pos (h.memZ hz) hzt
  refine ⟨z, hz, he, hzt, hg, ?_, ht', hp.1, hp.2, ?_⟩
  · refine h.quiet (h.memZ hz) hzt ?_
    intro y hy hye
    have hs : y.2.1 = z.2.1 := by rw [← (h.j y hy).seq, ← hJ.seq, hye]
    have hi : (s.info y.2.1).tag = some t := by rw [hs]; exact ht'
    cases hgy : (g y.2.2.1).getLsbD 1 with
    | false => rfl
    | true =>
      -- the two entries of the list carry the same number, hence are the same
      have hsorted := h.core.sorted
      rw [h.win, List.append_assoc, List.pairwise_append] at hsorted
      have hzy : y = z := by
        have := hsorted.1
        rw [List.pairwise_map] at this
        exact pair_inj (f := fun z : Flight n × Sig => z.1.seq) (this.imp fun hlt => Nat.ne_of_lt hlt) hy hz (by rw [hye])
      rw [hzy, hg] at hgy; cases hgy
  · have hb := hJ.expect t ht'
    rw [hex] at hb
    cases hcc : Rob.complete u with
    | false => rfl
    | true =>
      have : u.cplt = u.expect := by simpa [Rob.complete] using hcc
      rw [this, hb] at hc; cases hc

/-- Where a report comes from. -/
theorem Link.res (h : Link k s bw rw Z g) (hL : 0 < k.L) {c : Cyc n} (hv : Valid k s c) {ZL : List (Flight n × Sig)}
    (hsub : ∀ z ∈ ZL, z ∈ Z) (hlive : ∀ u ∈ live k s, Rob.complete u = false → ∃ z ∈ ZL, z.2 = sig u)
    {o : Exu.Op n} (ho : o ∈ c.res) :
    (∃ z ∈ ZL, z.2.2.1 = o.robIdx ∧ z.1.tag = some o.brId ∧ (g z.2.2.1).getLsbD 1 = false ∧
      s.idu.latch.clear.getLsbD o.brId = false ∧ (s.info z.2.1).tag = some o.brId ∧ 0 < o.brId ∧ o.brId < n) ∨
    (o.brId = 0 ∧ o.mispred = false ∧ ∀ u ∈ RobQueue.insts k.L s.rob, u.robIdx = o.robIdx → (s.info u.id).tag = none) := by
  obtain ⟨W, hW⟩ := Proofs.Rob.rinv_reach hL h.qr
  rcases hv.res o ho with ⟨u, hu, h1, h2, h3⟩ | h2
  · have hmem : u ∈ insts k.L s.rob := by
      unfold live at hu
      split at hu
      · rw [← Proofs.Rob.upTo_prefix s.redirect (insts k.L s.rob)]; exact List.mem_append_left _ hu
      · exact hu
    obtain ⟨z, hz, e1, e2, e3, e4, e5, e6, e7, e8⟩ := h.report hL hmem h2 h3
    obtain ⟨z', hz', e'⟩ := hlive u hu e8
    have : z' = z := pair_inj (f := fun z : Flight n × Sig => z.2.2.1) (sig_inj (rob_inj hW) h.sigs) (hsub z' hz') hz
      (by show z'.2.2.1 = z.2.2.1; rw [e', e1])
    subst this
    exact .inl ⟨z', hz', by rw [e1]; exact h1, e2, e3, e4, e5, e6, e7⟩
  · exact .inr h2

theorem survive_tag' {b : Idu.State n} {f : Flight n} {t : Nat} (h : f.tag = some t) (hc : b.latch.clear.getLsbD t = false) :
    (BranchWindow.survive (Idu.combBranch b) f).tag = some t := IduProofs.survive_tag.2 ⟨h, hc⟩

theorem survive_none {b : Idu.State n} {f : Flight n} (h : ∀ t, f.tag = some t → b.latch.clear.getLsbD t = true) :
    (BranchWindow.survive (Idu.combBranch b) f).tag = none := by
  cases ht : (BranchWindow.survive (Idu.combBranch b) f).tag with
  | none => rfl
  | some t =>
    obtain ⟨a, b⟩ := IduProofs.survive_tag.1 ht
    rw [h t a] at b; cases b

/-- The branch results of the cycle as the decode stage latches them. -/
theorem Link.resolve (h : Link k s bw rw Z g) (hL : 0 < k.L) {c : Cyc n} (hv : Valid k s c) {ZL : List (Flight n × Sig)}
    (hsub : ∀ z ∈ ZL, z ∈ Z) (hlive : ∀ u ∈ live k s, Rob.complete u = false → ∃ z ∈ ZL, z.2 = sig u) :
    (∀ t, 0 < t → (exu2id c).clear.getLsbD t = true → ∃ z ∈ ZL, ∃ o ∈ c.res, z.2.2.1 = o.robIdx ∧ z.1.tag = some t ∧
      o.brId = t ∧ (BranchWindow.survive (Idu.combBranch s.idu) z.1).tag = some t) ∧
    ((exu2id c).mispred = true → 0 < (exu2id c).brId ∧ (exu2id c).clear.getLsbD (exu2id c).brId = true ∧
      ∃ z ∈ ZL, (BranchWindow.survive (Idu.combBranch s.idu) z.1).tag = some (exu2id c).brId ∧
        z.2.2.1 = ((arb c).worst.map (·.robIdx)).getD 0) := by
  constructor
  · intro t ht hc
    obtain ⟨o, ho, he⟩ := (arb_clear c.res t (BitVec.lt_of_getLsbD hc)).1 hc
    rcases h.res hL hv hsub hlive ho with ⟨z, hz, e1, e2, e3, e4, e5, _⟩ | e
    · rw [he] at e2 e4
      exact ⟨z, hz, o, ho, e1, e2, he, survive_tag' e2 e4⟩
    · omega
  · intro hm
    obtain ⟨w, hw⟩ := Option.isSome_iff_exists.1 hm
    rcases arb_worst c.res _ hw with e | ⟨hmem, hmis⟩
    · cases e
    · have hid : (exu2id c).brId = w.brId := by unfold exu2id; rw [hw]; rfl
      have hrd : ((arb c).worst.map (·.robIdx)).getD 0 = w.robIdx := by rw [hw]; rfl
      rcases h.res hL hv hsub hlive hmem with ⟨z, hz, e1, e2, e3, e4, e5, e6, e7⟩ | e
      · rw [hid, hrd]
        exact ⟨e6, (arb_clear c.res _ e7).2 ⟨w, hmem, rfl⟩, z, hz, survive_tag' e2 e4, e1⟩
      · rw [e.2.1] at hmis; cases hmis

theorem finish (h : Link k s bw rw Z g) (hL : 0 < k.L) {c : Cyc n} (hv : Valid k s c) {ZL D : List (Flight n × Sig)}
    (hsub : ∀ z ∈ ZL, z ∈ Z) (hlive : ∀ u ∈ live k s, Rob.complete u = false → ∃ z ∈ ZL, z.2 = sig u)
    {s' : St n} {g' : Nat → BitVec 3} (hlat : s'.idu.latch = exu2id c)
    (hred : s'.redirect = ((arb c).worst.map (·.robIdx)).getD 0) (hinfo : ∀ z ∈ ZL, s'.info z.2.1 = s.info z.2.1)
    (hg1 : ∀ z ∈ ZL, g' z.2.2.1 = (c.wbs ++ c.res.map brWb).foldl
      (fun m w => if w.robIdx = z.2.2.1 then m ||| w.bit else m) (g z.2.2.1))
    (hD : ∀ d ∈ D, d.1.seq = d.2.1 ∧ d.1.tag = (s'.info d.2.1).tag ∧
      (∀ t, (s'.info d.2.1).tag = some t → d.2.2.2.2.2.getLsbD 1 = true) ∧ g' d.2.2.1 = 0#3) :
    (∀ z ∈ ZL.map (fun z => (BranchWindow.survive (Idu.combBranch s.idu) z.1, z.2)) ++ D, J s' g' z) ∧
    (∀ t, 0 < t → s'.idu.latch.clear.getLsbD t = true →
      ∃ z ∈ ZL.map (fun z => (BranchWindow.survive (Idu.combBranch s.idu) z.1, z.2)) ++ D,
        z.1.tag = some t ∧ (g' z.2.2.1).getLsbD 1 = true) ∧
    (s'.idu.latch.mispred = true → ∃ z ∈ ZL.map (fun z => (BranchWindow.survive (Idu.combBranch s.idu) z.1, z.2)) ++ D,
      z.1.tag = some s'.idu.latch.brId ∧ z.2.2.1 = s'.redirect) := by
  obtain ⟨W, hW⟩ := Proofs.Rob.rinv_reach hL h.qr
  have hinj := sig_inj (rob_inj hW) h.sigs
  obtain ⟨hr1, hr2⟩ := h.resolve hL hv hsub hlive
  have hbit : ∀ o ∈ c.res, ∀ z ∈ ZL, z.2.2.1 = o.robIdx → (g' z.2.2.1).getLsbD 1 = true := by
    intro o ho z hz he
    rw [hg1 z hz, fold_bit]
    exact .inr ⟨brWb o, List.mem_append_right _ (List.mem_map_of_mem ho), he.symm, by simp [brWb]⟩
  refine ⟨?_, ?_, ?_⟩
  · intro z' hz'
    rcases List.mem_append.1 hz' with hz' | hd
    · obtain ⟨z, hz, rfl⟩ := List.mem_map.1 hz'
      have hJ := h.j z (hsub z hz)
      obtain ⟨u, hu, hsu⟩ := List.mem_map.1 (show z.2 ∈ (insts k.L s.rob).map sig by
        rw [h.sigs]; exact List.mem_map_of_mem (hsub z hz))
      have hid : z.2.1 = u.id := by rw [← hsu]; rfl
      have hix : z.2.2.1 = u.robIdx := by rw [← hsu]; rfl
      constructor
      · exact hJ.seq
      · show (BranchWindow.survive (Idu.combBranch s.idu) z.1).tag = none ∨
          (BranchWindow.survive (Idu.combBranch s.idu) z.1).tag = (s'.info z.2.1).tag
        rw [hinfo z hz]
        cases ht : (BranchWindow.survive (Idu.combBranch s.idu) z.1).tag with
        | none => exact .inl rfl
        | some t =>
          obtain ⟨a, _⟩ := IduProofs.survive_tag.1 ht
          rcases hJ.tag with e | e
          · rw [e] at a; cases a
          · right; rw [← e, a]
      · intro t ht
        rw [show s'.info z.2.1 = s.info z.2.1 from hinfo z hz] at ht
        exact hJ.expect t ht
      · intro t ht hg
        rw [show s'.info z.2.1 = s.info z.2.1 from hinfo z hz] at ht
        have hg0 : (g z.2.2.1).getLsbD 1 = false := by
          cases he : (g z.2.2.1).getLsbD 1 with
          | false => rfl
          | true =>
            have : (g' z.2.2.1).getLsbD 1 = true := by rw [hg1 z hz, fold_bit]; exact .inl he
            rw [this] at hg; cases hg
        have hc : u.cplt.getLsbD 1 = false := by rw [done_mem hW h.done hu, ← hix]; exact hg0
        rw [hid] at ht
        obtain ⟨y, hy, e1, e2, e3, e4, _⟩ := h.report hL hu ht hc
        have : y = z := pair_inj (f := fun z : Flight n × Sig => z.2.2.1) hinj hy (hsub z hz)
          (by show y.2.2.1 = z.2.2.1; rw [e1, hsu])
        subst this
        exact survive_tag' e2 e4
      · intro t ht hg
        rw [show s'.info z.2.1 = s.info z.2.1 from hinfo z hz] at ht
        rw [hg1 z hz, fold_bit] at hg
        rcases hg with hg | ⟨w, hw, hwi, hwb⟩
        · left
          refine survive_none fun x hx => ?_
          have hxt : x = t := by
            rcases hJ.tag with e | e
            · rw [e] at hx; cases hx
            · rw [e, ht] at hx; exact (Option.some.inj hx).symm
          subst hxt
          rcases hJ.gone x ht hg with e | e
          · rw [e] at hx; cases hx
          · exact e
        · right
          rw [hlat]
          rcases List.mem_append.1 hw with hw | hw
          · have := hv.wbs w hw hwb u hu (by rw [← hix, hwi])
            rw [← hid, ht] at this; cases this
          · obtain ⟨o, ho, rfl⟩ := List.mem_map.1 hw
            have hwi : o.robIdx = z.2.2.1 := hwi
            rcases h.res hL hv hsub hlive ho with ⟨y, hy, e1, e2, e3, e4, e5, e6, e7⟩ | e
            · have : y = z := pair_inj (f := fun z : Flight n × Sig => z.2.2.1) hinj (hsub y hy) (hsub z hz)
                (by show y.2.2.1 = z.2.2.1; rw [e1, hwi])
              subst this
              have : o.brId = t := by rw [ht] at e5; exact (Option.some.inj e5).symm
              rw [← this]
              exact (arb_clear c.res _ e7).2 ⟨o, ho, rfl⟩
            · have := e.2.2 u hu (by rw [← hix, hwi])
              rw [← hid, ht] at this; cases this
    · obtain ⟨d1, d2, d3, d4⟩ := hD z' hd
      refine ⟨d1, .inr d2, d3, fun t ht _ => by rw [d2, ht], fun t ht hg => ?_⟩
      rw [d4] at hg; simp at hg
  · intro t ht hc
    rw [hlat] at hc
    obtain ⟨z, hz, o, ho, e1, _, _, e2⟩ := hr1 t ht hc
    exact ⟨_, List.mem_append_left _ (List.mem_map_of_mem hz), e2, hbit o ho z hz e1⟩
  · intro hm
    rw [hlat] at hm ⊢
    obtain ⟨_, _, z, hz, e1, e2⟩ := hr2 hm
    exact ⟨_, List.mem_append_left _ (List.mem_map_of_mem hz), e1, by rw [hred]; exact e2⟩
end

end Verif.SpineProofs

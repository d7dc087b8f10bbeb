import Verif.Proofs.FullCpuFetch
/-
What `HandOff` and `Whole` leave to each other holds in the machine made of both.
-/
namespace Verif.FullCpuProofs
open Verif.FullCpu
open Verif.Spine Verif.SpineProofs Verif.WholeProofs
open Verif.Core (W Sem Fetched)
open Verif.HandOff (Insn)
open Verif.FetchStream (Ev IsJal IsJalr IsBranch jalTarget)
open Verif.FetchWindow (Flight)
open Verif.ICache (World)
open Verif.Decode (decodeEntry)

variable {F n : Nat} {M : Type} {k : FullCpu.Cfg} {prog : W → Sem M}

theorem jalr_type {w : W} (h : IsJalr w) : (Decode.decode w).type = .jalr := by
  have h' : w.extractLsb' 0 7 = 0b1100111#7 := h
  obtain ⟨u, hu⟩ : ∃ u, Decode.decodeOpcode w (Decode.decodeFields w) = u := ⟨_, rfl⟩
  have h1 : u.type = .jalr := by rw [← hu, Decode.decodeOpcode, h']; rfl
  rw [Decode.decode, hu, Decode.decodeFinish]
  simp only [h1]
  split <;> split <;> simp_all

theorem branch_type {w : W} (h : IsBranch w) : (Decode.decode w).type = .br := by
  have h' : w.extractLsb' 0 7 = 0b1100011#7 := h
  obtain ⟨u, hu⟩ : ∃ u, Decode.decodeOpcode w (Decode.decodeFields w) = u := ⟨_, rfl⟩
  have h1 : u.type = .br := by rw [← hu, Decode.decodeOpcode, h']; rfl
  rw [Decode.decode, hu, Decode.decodeFinish]
  simp only [h1]
  split <;> split <;> simp_all

theorem not_jump {w : W} (h : isBranch (decodeEntry w false) = false) : ¬ IsJalr w ∧ ¬ IsBranch w := by
  have h : isBranch (Decode.decode w) = false := h
  constructor <;> intro hj <;> unfold isBranch at h
  · rw [jalr_type hj] at h; cases h
  · rw [branch_type hj] at h; cases h

/-- Address and predicted successor. -/
def pair (f : Flight) : W × W := (f.entry.pc, (Insn.of f).pn)

section
variable {s : FullCpu.State F n M}

theorem issue_eq (hM : 0 < k.buf) (hN : 0 < k.ftq) (hq : FetchWindow.Reach k.buf k.ftq s.fe.q) :
    issue k s = (s.fe.q.wait.take k.back.dis.banks).map (fun f => some f.entry) ++
      List.replicate (k.back.dis.banks - (s.fe.q.wait.take k.back.dis.banks).length) none := by
  unfold issue
  simp only [(Props.C20_offered hM hN hq _).1, List.map_map, List.length_map]
  rfl

theorem issue_length (hM : 0 < k.buf) (hN : 0 < k.ftq) (hq : FetchWindow.Reach k.buf k.ftq s.fe.q) :
    (issue k s).length = k.back.dis.banks := by
  rw [issue_eq hM hN hq, List.length_append, List.length_map, List.length_replicate]
  have : (s.fe.q.wait.take k.back.dis.banks).length ≤ k.back.dis.banks := by rw [List.length_take]; omega
  omega

theorem address_eq (hM : 0 < k.buf) (hN : 0 < k.ftq) (hq : FetchWindow.Reach k.buf k.ftq s.fe.q) {f : Flight}
    (hf : f ∈ s.fe.q.wait) : address s f.entry = pair f := by
  have := (Props.C21_lookup hM hN hq f (List.mem_append_right _ hf)).1
  unfold address
  rw [this]
  rfl

theorem slots_eq (hM : 0 < k.buf) (hN : 0 < k.ftq) (hq : FetchWindow.Reach k.buf k.ftq s.fe.q) (c : FullCpu.Cyc F n M) :
    (input k s c).slots = (s.fe.q.wait.take k.back.dis.banks).map pair ++
      List.replicate (k.back.dis.banks - (s.fe.q.wait.take k.back.dis.banks).length) (0#32, 0#32) := by
  show (issue k s).map _ = _
  rw [issue_eq hM hN hq, List.map_append, List.map_map, List.map_replicate]
  congr 1
  apply List.map_congr_left
  intro f hf
  exact address_eq hM hN hq (List.mem_of_mem_take hf)

theorem decSlots_length (c : FullCpu.Cyc F n M) : (decSlots k.back s.be.sp (input k s c).hw).length = (issue k s).length := by
  unfold decSlots Idu.combDecode
  rw [decodeLoop_length]
  simp [decoded, input]

/-- Decode takes the first `m` of those that wait. -/
theorem takes (hM : 0 < k.buf) (hN : 0 < k.ftq) (hq : FetchWindow.Reach k.buf k.ftq s.fe.q) (c : FullCpu.Cyc F n M) :
    ∃ m, m ≤ s.fe.q.wait.length ∧
      Whole.fresh k.back s.be (input k s c) = (s.fe.q.wait.take m).map pair ∧
      ((decSlots k.back s.be.sp (input k s c).hw).filter (·.valid)).length = m ∧
      ((decSlots k.back s.be.sp (input k s c).hw).takeWhile (·.valid)).length = m := by
  obtain ⟨m, h1, h2⟩ := valid_prefix (n := n) (k.back.dis.banks - (s.fe.q.wait.take k.back.dis.banks).length)
    ((s.fe.q.wait.take k.back.dis.banks).map fun f => isBranch (decodeEntry f.entry.inst f.entry.pageFault))
    (Idu.allocTags s.be.sp.idu k.back.maxBr) (s.be.sp.idu.now &&& ~~~s.be.sp.idu.latch.clear)
  have hd : decSlots k.back s.be.sp (input k s c).hw = Idu.decodeLoop (((s.fe.q.wait.take k.back.dis.banks).map fun f =>
      isBranch (decodeEntry f.entry.inst f.entry.pageFault)).map some ++
        List.replicate (k.back.dis.banks - (s.fe.q.wait.take k.back.dis.banks).length) none)
      (Idu.allocTags s.be.sp.idu k.back.maxBr) (s.be.sp.idu.now &&& ~~~s.be.sp.idu.latch.clear) := by
    show Idu.decodeLoop ((((issue k s).map _).map _).map _) _ _ = _
    rw [issue_eq hM hN hq]
    simp only [List.map_append, List.map_map, List.map_replicate]
    rfl
  rw [← hd] at h2
  rw [List.length_map] at h1
  obtain ⟨f1, f2⟩ := filter_prefix (fun sl : Idu.Slot n => sl.valid) _ _ _ h2
  refine ⟨m, ?_, ?_, f1, f2⟩
  · rw [List.length_take] at h1; omega
  · unfold Whole.fresh
    rw [zip_prefix (fun sl : Idu.Slot n => sl.valid) m _ _ _ (by rw [decSlots_length]; simp [input]) h2, slots_eq hM hN hq,
      List.take_append_of_le_length (by rw [List.length_map]; exact h1), ← List.map_take, List.take_take]
    rw [List.length_take] at h1
    rw [Nat.min_eq_left (by omega)]

theorem fetched_pairs (c : FullCpu.Cyc F n M) :
    ((Whole.fetched k.back s.be (input k s c)).filterMap id).map (fun f => (f.pc, f.pn)) =
      Whole.fresh k.back s.be (input k s c) := by
  have h1 : ∀ (g : DInst n → Fetched) (l : List (Option (DInst n))),
      ((l.map (Option.map g)).filterMap id) = (l.filterMap id).map g := by
    intro g l
    induction l with
    | nil => rfl
    | cons x l ih => cases x <;> simp [ih]
  unfold Whole.fetched
  rw [h1, List.map_map]
  have h2 := number_uids (decoded (input k s c).hw) (decSlots k.back s.be.sp (input k s c).hw) (input k s c).slots s.be.sp.next
    (by rw [decSlots_length]; simp [decoded, input]) (by simp [decoded, input])
  have h3 : ((number s.be.sp.next (decoded (input k s c).hw) (decSlots k.back s.be.sp (input k s c).hw)).filterMap id).map
      (fun d => Whole.pay1 k.back s.be (input k s c) d.uid) = Whole.fresh k.back s.be (input k s c) := by
    rw [show (fun d : DInst n => Whole.pay1 k.back s.be (input k s c) d.uid) =
      (Whole.pay1 k.back s.be (input k s c)) ∘ (·.uid) from rfl, ← List.map_map, h2]
    have h4 := map_getD s.be.sp.next (0#32, 0#32) (Whole.fresh k.back s.be (input k s c))
    refine Eq.trans ?_ h4
    apply List.map_congr_left
    intro u hu
    rw [List.mem_range'_1] at hu
    unfold Whole.pay1
    rw [if_neg (by omega)]
  exact h3

end

/-! ### The invariant -/

/-- What holds between the two parts. -/
structure Inv (k : FullCpu.Cfg) (tr : List (Ev F Nat)) (s : FullCpu.State F n M) : Prop where
  flights : pcsQueue s = pcsStages k s
  gone : s.fe.bo.redirect = true → s.be.expect = s.fe.bo.pc
  goes : s.fe.bo.redirect = false → s.be.expect = Props.expected k.front tr s.fe
  fence : s.fe.bo.fenceI = true → s.fe.bo.redirect = true
  four : ∀ x ∈ HandOff.delivered tr, x.pc.toNat % 4 = 0

/-- The parameters: a fetch group fits a line of 64 bytes, and the queues have entries. -/
structure GoodCfg (F : Nat) (k : FullCpu.Cfg) : Prop where
  back : Good k.back
  cap : k.front.ptabCap - 1 ≤ k.front.instCap
  line : k.front.line = 64#32
  width : F * 4 ≤ 64
  buf : 0 < k.buf
  ftq : 0 < k.ftq

section
variable [NeZero F] {tr : List (Ev F Nat)} {w w' : World} {s : FullCpu.State F n M} {c : FullCpu.Cyc F n M} {e : Ev F Nat}

omit [NeZero F] in
theorem culprit_iff (hk : Good k.back) (hr : Spine.Reach k.back s.be.sp) (hv : Spine.Valid k.back s.be.sp (input k s c).hw)
    (hm : s.be.sp.idu.latch.mispred = true) : ∃ u ∈ inflight k.back s.be.sp, Whole.culprit k.back s.be = some u ∧
      retired s.be.sp (input k s c).hw = [] ∧ flush s.be.sp (input k s c).hw = false ∧
      (Spine.step k.back s.be.sp (input k s c).hw).next = s.be.sp.next ∧
      inflight k.back (Spine.step k.back s.be.sp (input k s c).hw) = (inflight k.back s.be.sp).filter (· ≤ u) := by
  obtain ⟨bw, rw, Z, g, hl⟩ := link_reach hk hr
  obtain ⟨b, hb, hbr, _, h1, h2, h3, h4⟩ := Props.C106_squash hk hr hv hm
  obtain ⟨Wr, hW⟩ := Proofs.Rob.rinv_reach hk.lines hl.qr
  refine ⟨b.id, ?_, ?_, h1, h2, h3, h4⟩
  · unfold inflight robIds
    exact List.mem_append_left _ (List.mem_append_left _ (List.mem_map_of_mem hb))
  · unfold Whole.culprit
    rw [if_pos hm]
    cases hf : (RobQueue.insts k.back.L s.be.sp.rob).find? (fun u => u.robIdx == s.be.sp.redirect) with
    | none =>
      have := List.find?_eq_none.1 hf b hb
      simp [hbr] at this
    | some v =>
      have h1 := List.mem_of_find?_eq_some hf
      have h2 : v.robIdx = s.be.sp.redirect := by simpa using List.find?_some hf
      rw [pair_inj (rob_inj hW) h1 hb (h2.trans hbr.symm)]; rfl

omit [NeZero F] in
theorem spine_valid (hk : GoodCfg F k) (hq : FetchWindow.Reach k.buf k.ftq s.fe.q) (ok : Ok k prog w s c) :
    Spine.Valid k.back s.be.sp (input k s c).hw :=
  ⟨by show ((issue k s).map _).length = _; rw [List.length_map, issue_length hk.buf hk.ftq hq], ok.res, ok.wbs⟩

omit [NeZero F] in
theorem retire_le (hk : Good k.back) (hr : Spine.Reach k.back s.be.sp) :
    (retired s.be.sp (input k s c).hw).length ≤ (inflight k.back s.be.sp).length := by
  obtain ⟨bw, rw, Z, g, hl⟩ := link_reach hk hr
  obtain ⟨_, _, rest, _, hins, _⟩ := hl.split hk (input k s c).hw
  unfold inflight robIds
  rw [hins]
  simp only [List.length_append, List.length_map]
  omega

omit [NeZero F] in
theorem flights_length (hI : Inv k tr s) : s.fe.q.flight.length = (inflight k.back s.be.sp).length := by
  have := congrArg List.length hI.flights
  simpa [pcsQueue, pcsStages] using this

omit [NeZero F] in
theorem consumed_le (hk : GoodCfg F k) (hq : FetchWindow.Reach k.buf k.ftq s.fe.q) : consumed k s c ≤ s.fe.q.wait.length := by
  obtain ⟨m, h1, _, _, h4⟩ := takes (s := s) hk.buf hk.ftq hq c
  unfold consumed
  split
  · exact Nat.zero_le _
  · rw [h4]; exact h1

/-- What the queues in front of decode assume of the back end. -/
theorem window_valid (hk : GoodCfg F k) (hr : Spine.Reach k.back s.be.sp) (hq : FetchWindow.Reach k.buf k.ftq s.fe.q)
    (hI : Inv k tr s) (hv : Spine.Valid k.back s.be.sp (input k s c).hw) (b : HandOff.Slots F Nat) :
    FetchWindow.Valid s.fe.q (HandOff.window b (back k s c)) := by
  refine ⟨consumed_le hk hq, ?_, ?_⟩
  · rw [flights_length hI]; exact retire_le hk.back hr
  · intro p hp
    have hp : (Whole.culprit k.back s.be).map (fun u => (inflight k.back s.be.sp).idxOf u) = some p := hp
    cases hm : s.be.sp.idu.latch.mispred with
    | false => rw [culprit_none hm] at hp; cases hp
    | true =>
      obtain ⟨u, hu, hc, hret, _⟩ := culprit_iff (c := c) hk.back hr hv hm
      rw [hc] at hp
      cases hp
      refine ⟨?_, ?_⟩
      · rw [flights_length hI]; exact List.idxOf_lt_length_of_mem hu
      · show (retired _ _).length = 0
        rw [hret]; rfl

/-- Nothing is offered while a redirect is on its way; otherwise what waits has been delivered. -/
theorem wait_mem (hk : GoodCfg F k) (hh : HandOff.Reach k.front k.buf k.ftq tr w s.fe) {f : Flight} (hf : f ∈ s.fe.got ++ s.fe.q.wait) :
    s.fe.bo.redirect = false ∧ Insn.of f ∈ HandOff.delivered tr := by
  obtain ⟨h1, h2⟩ := Props.C111_exact hk.cap hh
  cases hr : s.fe.bo.redirect with
  | true =>
    obtain ⟨a, b⟩ := h1 hr
    rw [a, b] at hf; cases hf
  | false =>
    refine ⟨rfl, ?_⟩
    rw [← h2 hr, ← List.map_append]
    exact List.mem_append_left _ (List.mem_map_of_mem hf)

/-- What is fetched follows the program. -/
theorem insn_facts (hk : GoodCfg F k) (hh : HandOff.Reach k.front k.buf k.ftq tr w s.fe) (hI : Inv k tr s) (hw : Holds prog w) {f : Flight}
    (hf : f ∈ s.fe.q.wait) : Whole.Agrees (decodeEntry f.entry.inst f.entry.pageFault) (prog f.entry.pc) ∧
      ((prog f.entry.pc).isBr = false → (prog f.entry.pc).serial = false → ∀ m a b, (prog f.entry.pc).next m a b = (Insn.of f).pn) := by
  have hmem := List.mem_append_right s.fe.got hf
  have hright := Props.C111_words hk.cap hh f hmem
  have ht := frun_tight hk.cap hk.line hk.width (HandOff.reach_all hk.cap hh).1 _ (wait_mem hk hh hmem).2
  obtain ⟨h1, h2⟩ := hw _ (hI.four _ (wait_mem hk hh hmem).2) hright ht.nop
  refine ⟨h1, fun hb hs m a b => ?_⟩
  have hn := h2 hb hs m a b
  rw [show (Insn.of f).pc = f.entry.pc from rfl] at hn
  rw [hn, show (Insn.of f).word = f.entry.inst from rfl]
  have hisb : isBranch (decodeEntry f.entry.inst f.entry.pageFault) = false := Eq.trans h1.isBr.symm hb
  have hbj : ¬ IsJalr f.entry.inst ∧ ¬ IsBranch f.entry.inst := by
    cases hpf : f.entry.pageFault with
    | true =>
      have : f.entry.inst = Front.instNop := ht.nop hpf
      rw [this]
      exact ⟨fun h => absurd h (by unfold IsJalr FetchStream.opcode; decide), fun h => absurd h (by unfold IsBranch FetchStream.opcode; decide)⟩
    | false => rw [hpf] at hisb; exact not_jump hisb
  unfold Insn.pn
  by_cases hj : IsJal f.entry.inst
  · obtain ⟨j1, j2⟩ := ht.jal hj
    rw [if_pos hj, if_pos j1, j2]; rfl
  · rw [if_neg hj]
    have : (Insn.of f).taken = false := by
      cases hx : (Insn.of f).taken with
      | false => rfl
      | true =>
        rcases ht.taken hx with h | h | h
        · exact absurd h hj
        · exact absurd h hbj.1
        · exact absurd h hbj.2
    rw [this]; rfl

end
end Verif.FullCpuProofs

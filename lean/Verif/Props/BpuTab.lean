import Verif.Proofs.BpuSys
import Verif.Props.Bpu
/-
C98–C100: the type predictor, the target predictor, and the predictor with both.
-/
namespace Verif.Props
open Verif.Bpu Verif.BpuTab Verif.BpuSys

/-! ### C98: type predictor -/

/-- A jump, a conditional branch and an addition of a small program; the fourth address shares the set of the first. -/
def jalPc : BitVec 32 := 0x80000010#32
def brPc : BitVec 32 := 0x80000014#32
def addPc : BitVec 32 := 0x80000210#32
def farPc : BitVec 32 := 0x80200010#32

/-- Never invented: a predicted control type was told, by the newest cycle that told anything about the addresses that share the
entry. -/
theorem C98_told {c : Cfg} {tc : TCfg} (hw : 0 < tc.ways) (log : TLog) (pc : BitVec 32) :
    typePredict c tc (tableOf c tc log) pc = .nonctl ∨ typePredict c tc (tableOf c tc log) pc ∈ latest c tc pc log := by
  rw [predict_look]
  rcases look_latest hw pc log with h | ⟨e, h, hm, -⟩
  · rw [h]; exact Or.inl rfl
  · rw [h]; exact Or.inr hm

example : typePredict cfg0 tcfg0 (tableOf cfg0 tcfg0 [[(brPc, .direct)], [(jalPc, .jal), (brPc, .nonctl)]]) jalPc = .jal ∧
    typePredict cfg0 tcfg0 (tableOf cfg0 tcfg0 [[(brPc, .direct)], [(jalPc, .jal), (brPc, .nonctl)]]) brPc = .direct ∧
    latest cfg0 tcfg0 jalPc [[(brPc, .direct)], [(jalPc, .jal), (brPc, .nonctl)]] = [.jal] := by decide +kernel

/-- Learned at once: the last instruction of a cycle in its set is predicted with its type from the next cycle. -/
theorem C98_learns {c : Cfg} {tc : TCfg} (hw : 0 < tc.ways) {us us' : List (BitVec 32 × BrType)} {pc : BitVec 32} {ty : BrType}
    (log : TLog) (hty : ty ≠ .nonctl) (hlast : ∀ v ∈ us', (typeKey c tc v.1).1 ≠ (typeKey c tc pc).1) :
    typePredict c tc (tableOf c tc ((us ++ (pc, ty) :: us') :: log)) pc = ty :=
  learn (u := (pc, ty)) hw log hty hlast

example : typePredict cfg0 tcfg0 (tableOf cfg0 tcfg0 ([(farPc, .call), (jalPc, .jal), (brPc, .direct)] :: [[(jalPc, .ret)]])) jalPc = .jal := by
  exact C98_learns (us := [(farPc, .call)]) (us' := [(brPc, .direct)]) (by decide) _ (by decide) (by decide +kernel)

/-- Unlearned: after the addresses of an entry were only told to be no control instructions, no branch is predicted there. -/
theorem C98_unlearns {c : Cfg} {tc : TCfg} (hw : 0 < tc.ways) {log : TLog} {pc : BitVec 32} (h : ∀ t ∈ latest c tc pc log, t = .nonctl) :
    typePredict c tc (tableOf c tc log) pc = .nonctl := by
  rcases C98_told (c := c) hw log pc with h' | h'
  · exact h'
  · exact h _ h'

example : typePredict cfg0 tcfg0 (tableOf cfg0 tcfg0 [[(jalPc, .nonctl), (brPc, .direct)], [(jalPc, .jal)]]) jalPc = .nonctl :=
  C98_unlearns (by decide) (by decide +kernel)

/-- Kept: while the instructions of a set fit into its ways and retire in different cycles, the predicted type is the one told
last, whatever else the program does. -/
theorem C98_keeps {c : Cfg} {tc : TCfg} (hw : 0 < tc.ways) {is : List PIn} {pc : BitVec 32} (hf : TypeFits c tc is pc) :
    typePredict c tc (tableOf c tc (typeLog is)) pc = lastType c tc is pc := type_exact hw hf

/-- Which addresses share an entry: those whose word addresses agree modulo banks × sets × 2^tag bits. -/
theorem C98_shared {c : Cfg} (ok : c.Ok) {tc : TCfg} {m : Nat} (hs : tc.sets = 2 ^ m) (hm : m ≤ 32) (ht : tc.tagBits ≤ 32)
    (p q : BitVec 32) :
    typeKey c tc p = typeKey c tc q ↔
      p.toNat / 4 % (c.bankNum * (tc.sets * 2 ^ tc.tagBits)) = q.toNat / 4 % (c.bankNum * (tc.sets * 2 ^ tc.tagBits)) := by
  have e : ∀ x : BitVec 32, x.toNat / 4 = (x >>> 2).toNat := by
    intro x; rw [BitVec.toNat_ushiftRight, Nat.shiftRight_eq_div_pow]
  rw [typeKey_arith ok hs hm ht, typeKey_arith ok hs hm ht, e, e, hs, ← digits_iff]
  simp only [Prod.mk.injEq]
  constructor
  · rintro ⟨⟨a, b⟩, d⟩; exact ⟨a, b, d⟩
  · rintro ⟨a, b, d⟩; exact ⟨⟨a, b⟩, d⟩

/-- With the sizes as committed two instructions within 2 MiB never share an entry, and those 2 MiB apart always do. -/
example : typeKey cfg0 tcfg0 jalPc = typeKey cfg0 tcfg0 farPc ∧ typeKey cfg0 tcfg0 jalPc ≠ typeKey cfg0 tcfg0 addPc ∧
    (typeKey cfg0 tcfg0 jalPc).1 = (typeKey cfg0 tcfg0 addPc).1 := by decide +kernel

/-- The confidence and age counters stay in their ranges. -/
theorem C98_counters {c : Cfg} {tc : TCfg} (hc : 1 ≤ tc.confMax) (ha : 1 ≤ tc.ageMax) (log : TLog) (row : Nat × Nat) (w : Nat) :
    (tableOf c tc log row w).pay.2 ≤ tc.confMax ∧ (tableOf c tc log row w).rank ≤ tc.ageMax := table_bound hc ha log row w

/-- The condition on cycles is needed: of two instructions of one set that retire together the first can be lost though there
is a free way, and a correction that shares an entry with a branch of the same cycle can be lost too. -/
theorem C98_collision :
    (∃ p q : BitVec 32, typeKey cfg0 tcfg0 p ≠ typeKey cfg0 tcfg0 q ∧
      typePredict cfg0 tcfg0 (tableOf cfg0 tcfg0 [[(p, .jal), (q, .call)]]) p = .nonctl) ∧
    (∃ p q : BitVec 32, typePredict cfg0 tcfg0 (tableOf cfg0 tcfg0 [[(p, .jal), (q, .nonctl)]]) q = .jal) :=
  ⟨⟨jalPc, addPc, by decide +kernel⟩, ⟨jalPc, farPc, by decide +kernel⟩⟩

/-! ### C99: target predictor -/

/-- Updates of one bank, newest first: a call, an indirect jump that alternates, a loop branch. -/
def bankLog : BLog :=
  [⟨0x20000004#32, .call, true, 0x80001000#32⟩, ⟨0x20000100#32, .idirect, true, 0x80002000#32⟩,
   ⟨0x20000200#32, .direct, false, 0x80000100#32⟩, ⟨0x20000100#32, .idirect, true, 0x80003000#32⟩,
   ⟨0x20000200#32, .direct, true, 0x80000100#32⟩]

/-- Full statement: a predicted target is one the address really had, or else the next instruction.  Missing: instead of the next
instruction the predictor names the word after the address *within the bank* (`C99_fallthrough`).  Proved: for branches, direct
jumps, calls and returns the target is the newest one taught at an address that shares the entry, or that word. -/
theorem C99_direct_partial (b : BCfg) (log : BLog) (pc : BitVec 32) {ty : BrType} (h1 : ty ≠ .idirect) (h2 : ty ≠ .nonctl) :
    lastTarget b pc log = some (btbPredict b (btbOf b log) pc ty) ∨ btbPredict b (btbOf b log) pc ty = pc + 4#32 := by
  rw [predict_main b _ pc h1 h2]
  rcases h : look b.ways ((btbOf b log).btb (btbIdx b pc)) (btbTag b pc) with _ | e
  · exact Or.inr rfl
  · left
    rcases btb_says b pc log with h' | h'
    · rw [h] at h'; cases h'
    · rw [h] at h'; exact h'.symm

example : btbPredict bcfg0 (btbOf bcfg0 bankLog) 0x20000200#32 .direct = 0x80000100#32 ∧
    btbPredict bcfg0 (btbOf bcfg0 bankLog) 0x20000204#32 .direct = 0x20000208#32 := by decide +kernel

/-- Indirect jumps: the newest target that followed the present local history, or that led to it, or the newest at the address,
or the word after the address within the bank. -/
theorem C99_indirect_partial (b : BCfg) (log : BLog) (pc : BitVec 32) :
    lastBefore b pc (rowNow b pc log) log = some (btbPredict b (btbOf b log) pc .idirect) ∨
    lastAfter b pc (rowNow b pc log) log = some (btbPredict b (btbOf b log) pc .idirect) ∨
    lastTarget b pc log = some (btbPredict b (btbOf b log) pc .idirect) ∨
    btbPredict b (btbOf b log) pc .idirect = pc + 4#32 := idirect_source b log pc

example : btbPredict bcfg0 (btbOf bcfg0 bankLog) 0x20000100#32 .idirect = 0x80002000#32 := by decide +kernel

/-- Learned at once: the last taken branch, jump, call or return is predicted with its target. -/
theorem C99_learns {b : BCfg} (hw : 0 < b.ways) (log : BLog) (u : BUpd) (hd : u.dir = true) (h1 : u.ty ≠ .idirect)
    (h2 : u.ty ≠ .nonctl) : btbPredict b (btbOf b (u :: log)) u.pc u.ty = u.target := by
  have ht : teaches b u = true := by unfold teaches; rw [hd]; cases hty : u.ty <;> simp_all
  rw [predict_main b _ u.pc h1 h2]
  show ((look b.ways ((btbUpdate b (btbOf b log) u).btb (btbIdx b u.pc)) (btbTag b u.pc)).map Way.pay).getD _ = _
  obtain ⟨e1, e2, e3⟩ := mainEntry_spec b (btbOf b log) u
  rw [btb_main, if_pos ⟨ht, rfl⟩, look_put_self ((uniq_of b log).btb _) (btbVictim_lt hw _) _ _ e2 e1]
  simp [e3]

/-- Likewise an indirect jump, unless the history it made was once followed by another target; in particular one that always
goes to the same place. -/
theorem C99_learns_indirect {b : BCfg} (hw : 0 < b.tcWays) (log : BLog) (u : BUpd) (hd : u.dir = true) (hty : u.ty = .idirect)
    (hb : ∀ t, lastBefore b u.pc (rowNow b u.pc (u :: log)) (u :: log) = some t → t = u.target) :
    btbPredict b (btbOf b (u :: log)) u.pc .idirect = u.target := by
  refine idirect_learn hw log u hd hty ?_
  cases h : lastBefore b u.pc (rowNow b u.pc (u :: log)) (u :: log) with
  | none => exact Or.inl rfl
  | some t => exact Or.inr (by rw [hb t h])

theorem C99_monomorphic {b : BCfg} (hw : 0 < b.tcWays) (log : BLog) (u : BUpd) (hd : u.dir = true) (hty : u.ty = .idirect)
    (hm : ∀ v ∈ log, v.dir = true → v.ty = .idirect → tcTag b v.pc = tcTag b u.pc → v.target = u.target) :
    btbPredict b (btbOf b (u :: log)) u.pc .idirect = u.target := by
  refine C99_learns_indirect hw log u hd hty (fun t ht => ?_)
  obtain ⟨v, hv, h1, h2, h3, rfl⟩ := lastBefore_mem ht
  rcases List.mem_cons.mp hv with rfl | hv
  · rfl
  · exact hm v hv h1 h2 h3

example : btbPredict bcfg0 (btbOf bcfg0 (⟨0x20000300#32, .idirect, true, 0x80004000#32⟩ :: bankLog)) 0x20000300#32 .idirect =
    0x80004000#32 :=
  C99_monomorphic (by decide) _ ⟨0x20000300#32, .idirect, true, 0x80004000#32⟩ rfl rfl (by decide +kernel)

/-- Kept: while the taken branches and jumps of a set fit into its ways, the predicted target is exactly the newest one. -/
theorem C99_keeps {b : BCfg} (hw : 0 < b.ways) {log : BLog} {pc : BitVec 32} {ty : BrType} (h1 : ty ≠ .idirect) (h2 : ty ≠ .nonctl)
    {A : List (BitVec 32)} (hA : A.length ≤ b.ways)
    (hin : ∀ u ∈ log, teaches b u = true → btbIdx b u.pc = btbIdx b pc → ∃ a ∈ A, btbTag b u.pc = btbTag b a) :
    btbPredict b (btbOf b log) pc ty = (lastTarget b pc log).getD (pc + 4#32) := by
  rw [predict_main b _ pc h1 h2]
  rw [(btb_keeps hw (btbIdx b pc) (K := A.map (btbTag b)) (by simpa using hA) log (fun u hu ht hi => by
    obtain ⟨a, ha, he⟩ := hin u hu ht hi
    exact List.mem_map.mpr ⟨a, ha, he.symm⟩)).2 pc rfl]

example : btbPredict bcfg0 (btbOf bcfg0 bankLog) 0x20000200#32 .direct = 0x80000100#32 := by
  have := C99_keeps (b := bcfg0) (log := bankLog) (pc := 0x20000200#32) (ty := .direct) (by decide) (by decide) (by decide)
    (A := [0x20000200#32, 0x20000100#32, 0x20000004#32]) (by decide)
    (fun u hu _ _ => ⟨u.pc, (show ∀ u ∈ bankLog, u.pc ∈ [0x20000200#32, 0x20000100#32, 0x20000004#32] from by decide) u hu, rfl⟩)
  rw [this]
  decide +kernel

/-- Set and tag of an address, with the bits above the tag, identify the word: within a region of entries × 2^tag bits words no
two addresses of a bank share an entry. -/
theorem C99_faithful {b : BCfg} {m : Nat} (he : b.entries = 2 ^ m) (hm : m ≤ 32) (ht : b.tagBits ≤ 32) {p q : BitVec 32}
    (hi : btbIdx b p = btbIdx b q) (htag : btbTag b p = btbTag b q)
    (hup : p >>> (2 + m + b.tagBits) = q >>> (2 + m + b.tagBits)) : p >>> 2 = q >>> 2 := btbKey_inj he hm ht hi htag hup

/-- Outside such a region they can. -/
example : bcfg0.entries = 2 ^ 6 ∧ btbIdx bcfg0 0x20000100#32 = btbIdx bcfg0 0x20010110#32 ∧
    btbTag bcfg0 0x20000100#32 = btbTag bcfg0 0x20010110#32 := by decide +kernel

/-- The replacement counters stay within three bits, the chooser within 0 to 6, the local histories within their width. -/
theorem C99_counters {b : BCfg} (h1 : b.idirInit ≤ 7) (h2 : b.tcInit ≤ 7) (log : BLog) :
    (∀ j w, ((btbOf b log).btb j w).rank ≤ 7 ∧ ((btbOf b log).tc j w).rank ≤ 7 ∧ ((btbOf b log).tcPre j w).rank ≤ 7) ∧
    (∀ j, (btbOf b log).mode j ≤ 6 ∧ ((btbOf b log).bht j).toNat < 2 ^ b.histW) :=
  have h := bounded_of h1 h2 log
  ⟨fun j w => ⟨h.btb j w, h.tc j w, h.pre j w⟩, fun j => ⟨h.mode j, h.hist j⟩⟩

/-- The word named without an entry is not the next instruction: with two or more banks (a power of two) it is another address
at every address but 0. -/
theorem C99_fallthrough {c : Cfg} {k : Nat} (hb : c.bankNum = 2 ^ k) (hk : 0 < k) (b : BCfg) {pc : BitVec 32} (hpc : pc ≠ 0#32)
    (ty : BrType) : btbPredict b (btbOf b []) (bankPc c pc) ty = bankPc c pc + 4#32 ∧
      btbPredict b (btbOf b []) (bankPc c pc) ty ≠ pc + 4#32 := by
  have h1 : btbPredict b (btbOf b []) (bankPc c pc) ty = bankPc c pc + 4#32 := by
    by_cases hn : ty = .nonctl
    · subst hn; rfl
    · by_cases hi : ty = .idirect
      · subst hi
        rcases C99_indirect_partial b [] (bankPc c pc) with h | h | h | h
        · cases h
        · cases h
        · cases h
        · exact h
      · rcases C99_direct_partial b [] (bankPc c pc) hi hn with h | h
        · cases h
        · exact h
  refine ⟨h1, ?_⟩
  rw [h1]
  intro h
  have h2 : bankPc c pc = pc := by
    have := congrArg (· - 4#32) h
    simpa using this
  have h3 : bankPc c pc = pc >>> k := by
    unfold bankPc
    rw [hb, if_neg (by simp [Nat.and_two_pow_sub_one_eq_mod]), highestBit_pow]
  rw [h3] at h2
  have h4 := congrArg BitVec.toNat h2
  rw [BitVec.toNat_ushiftRight, Nat.shiftRight_eq_div_pow] at h4
  have h5 : 0 < pc.toNat := by
    rcases Nat.eq_zero_or_pos pc.toNat with h0 | h0
    · exact absurd (BitVec.eq_of_toNat_eq (by simpa using h0)) hpc
    · exact h0
  have h6 : pc.toNat / 2 ^ k < pc.toNat := Nat.div_lt_self h5 (Nat.one_lt_two_pow (by omega))
  omega

example : btbPredict bcfg0 (btbOf bcfg0 []) (bankPc cfg0 jalPc) .jal = 0x20000008#32 := by decide +kernel

/-! ### C100: the predictor with its tables -/

/-- Full statement: every predicted fetch address is the end of the group, a return address, or a target that a retired
instruction sharing the entry really had.  Missing: a taken slot without a target entry sends the fetch to an address nobody
ever named (`C100_stray`).  Proved: these four are all. -/
theorem C100_sources_partial {c : Cfg} (ok : c.Ok) {m : Nat} (hl : c.Lines m) {tc : TCfg} {b : BCfg} {pc0 : BitVec 32} {is : List PIn}
    {s s' : PSt} {os : List Out} {i : PIn} {o : Out} (h : pRun c tc b (pInit pc0) is = some (s, os))
    (hc : pCycle c tc b s i = some (s', o)) (hn : i.refetch = none) (hr : i.ready = true) :
    o.nextAddr = boundary c s.top.pc ∨ s.top.specRas.top = some o.nextAddr ∨
    ∃ k, k < c.fetchWidth ∧ slotOn c s.top.pc k = true ∧
      (o.nextAddr = bankPc c (slotPc s.top.pc k) + 4#32 ∨
       ∃ u ∈ retired is, u.dir = true ∧ u.ty ≠ .nonctl ∧ u.target = o.nextAddr ∧ bankSel c u.pc = bankSel c (slotPc s.top.pc k) ∧
         ((btbIdx b (bankPc c u.pc) = btbIdx b (bankPc c (slotPc s.top.pc k)) ∧
           btbTag b (bankPc c u.pc) = btbTag b (bankPc c (slotPc s.top.pc k))) ∨
          (u.ty = .idirect ∧ tcTag b (bankPc c u.pc) = tcTag b (bankPc c (slotPc s.top.pc k))))) := by
  obtain ⟨-, hlog⟩ := pRun_log ok h
  obtain ⟨h1, -, -⟩ := pCycle_some hc
  obtain ⟨hnext, -, -, -⟩ := cycle_next (i := answers c tc b s i) h1 hn hr
  rw [nextAddr_find] at hnext
  rcases hf : (slots c s.top.pc true (answers c tc b s i)).find? decides with _ | sl
  · rw [hf] at hnext; exact Or.inl hnext
  · rw [hf] at hnext
    dsimp only at hnext
    have hd := List.find?_some hf
    have hmem := List.mem_of_find?_eq_some hf
    obtain ⟨k, hk⟩ := List.mem_iff_getElem?.mp hmem
    obtain ⟨hk1, hpc, hon, hty, htk, htg⟩ := sys_slot ok hl hn hk
    unfold decides at hd
    simp only [Bool.and_eq_true] at hd
    have ho : sl.on = true := hd.1.1
    have ht := htg ho
    have htyne : sl.ty ≠ .nonctl := by
      intro e
      have := hd.1.2
      rw [htk, e] at this
      simp [predTaken] at this
    rw [ht, Option.getD_some] at hnext
    -- the two sources of the address
    have hsrc : o.nextAddr = btbPredict b (s.tgt (bankSel c sl.pc)) (bankPc c sl.pc) sl.ty ∨ s.top.specRas.top = some o.nextAddr := by
      by_cases hret : sl.ty = .ret
      · rw [if_pos hret] at hnext
        rcases hras : s.top.specRas.top with _ | a
        · rw [hras] at hnext; exact Or.inl hnext
        · rw [hras] at hnext; exact Or.inr (by rw [hnext]; rfl)
      · rw [if_neg hret] at hnext; exact Or.inl hnext
    rcases hsrc with hsrc | hsrc
    case inr => exact Or.inr (Or.inl hsrc)
    refine Or.inr (Or.inr ⟨k, hk1, by rw [← hon]; exact ho, ?_⟩)
    rw [← hpc]
    obtain ⟨htab, hord⟩ := hlog (bankSel c sl.pc)
    rw [htab] at hsrc
    have hmemR : ∀ u ∈ os.filterMap (fun o => o.train (bankSel c sl.pc)), u ∈ retired is ∧ bankSel c u.pc = bankSel c sl.pc := by
      intro u hu
      have : u ∈ ofBank c (bankSel c sl.pc) (retired is) := by rw [← hord]; exact List.mem_append_left _ hu
      unfold ofBank at this
      rw [List.mem_filter, beq_iff_eq] at this
      exact this
    have hmain : ∀ t, lastTarget b (bankPc c sl.pc) (taught c (os.filterMap (fun o => o.train (bankSel c sl.pc)))) = some t →
        ∃ u ∈ retired is, u.dir = true ∧ u.ty ≠ .nonctl ∧ u.target = t ∧ bankSel c u.pc = bankSel c sl.pc ∧
         ((btbIdx b (bankPc c u.pc) = btbIdx b (bankPc c sl.pc) ∧ btbTag b (bankPc c u.pc) = btbTag b (bankPc c sl.pc)) ∨
          (u.ty = .idirect ∧ tcTag b (bankPc c u.pc) = tcTag b (bankPc c sl.pc))) := by
      intro t hlt
      obtain ⟨v, hv, g1, g2, g3, g4⟩ := lastTarget_mem hlt
      obtain ⟨u, hu, rfl⟩ := taught_mem hv
      obtain ⟨r1, r2⟩ := hmemR u hu
      unfold teaches at g1
      simp only [Bool.and_eq_true, bne_iff_ne] at g1
      exact ⟨u, r1, g1.1.1, g1.1.2, g4, r2, Or.inl ⟨g2, g3⟩⟩
    have hind : ∀ v ∈ taught c (os.filterMap (fun o => o.train (bankSel c sl.pc))), ∀ t, v.dir = true → v.ty = .idirect →
        tcTag b v.pc = tcTag b (bankPc c sl.pc) → v.target = t →
        ∃ u ∈ retired is, u.dir = true ∧ u.ty ≠ .nonctl ∧ u.target = t ∧ bankSel c u.pc = bankSel c sl.pc ∧
         ((btbIdx b (bankPc c u.pc) = btbIdx b (bankPc c sl.pc) ∧ btbTag b (bankPc c u.pc) = btbTag b (bankPc c sl.pc)) ∨
          (u.ty = .idirect ∧ tcTag b (bankPc c u.pc) = tcTag b (bankPc c sl.pc))) := by
      intro v hv t g1 g2 g3 g4
      obtain ⟨u, hu, rfl⟩ := taught_mem hv
      obtain ⟨r1, r2⟩ := hmemR u hu
      have g2' : u.ty = .idirect := g2
      exact ⟨u, r1, g1, by rw [g2']; decide, g4, r2, Or.inr ⟨g2, g3⟩⟩
    by_cases hi : sl.ty = .idirect
    · rw [hi] at hsrc
      rcases C99_indirect_partial b (taught c (os.filterMap (fun o => o.train (bankSel c sl.pc)))) (bankPc c sl.pc) with g | g | g | g
      · right
        rw [hsrc]
        obtain ⟨v, hv, a1, a2, a3, a4⟩ := lastBefore_mem g
        exact hind v hv _ a1 a2 a3 a4
      · right
        rw [hsrc]
        obtain ⟨v, hv, a1, a2, a3, a4⟩ := lastAfter_mem g
        exact hind v hv _ a1 a2 a3 a4
      · right; rw [hsrc]; exact hmain _ g
      · left; rw [hsrc, g]
    · rcases C99_direct_partial b (taught c (os.filterMap (fun o => o.train (bankSel c sl.pc)))) (bankPc c sl.pc) hi htyne with g | g
      · right; rw [hsrc]; exact hmain _ g
      · left; rw [hsrc, g]

/-- A jump is followed once it is known.  In a run where the instructions of the group's sets fit, if the slots before slot `k`
were last reported to be no control instructions and slot `k` a direct jump or call that has trained its bank with target `t`
last, the next fetch is at `t`. -/
theorem C100_follows {c : Cfg} (ok : c.Ok) {m : Nat} (hl : c.Lines m) {tc : TCfg} (htw : 0 < tc.ways) {b : BCfg} (hbw : 0 < b.ways)
    {pc0 : BitVec 32} {is : List PIn} {s s' : PSt} {os : List Out} {i : PIn} {o : Out}
    (h : pRun c tc b (pInit pc0) is = some (s, os)) (hc : pCycle c tc b s i = some (s', o)) (hn : i.refetch = none)
    (hr : i.ready = true) {k : Nat} (hk : k < c.fetchWidth) (hon : slotOn c s.top.pc k = true) {t : BitVec 32}
    (hfit : ∀ j, j ≤ k → TypeFits c tc is (slotPc s.top.pc j))
    (hbefore : ∀ j, j < k → lastType c tc is (slotPc s.top.pc j) = .nonctl)
    (hjump : lastType c tc is (slotPc s.top.pc k) = .jal ∨ lastType c tc is (slotPc s.top.pc k) = .call)
    (hbfit : TargetFits c b is (slotPc s.top.pc k))
    (htrained : lastTarget b (bankPc c (slotPc s.top.pc k))
      (taught c (os.filterMap (fun o => o.train (bankSel c (slotPc s.top.pc k))))) = some t) :
    o.nextAddr = t ∧ s'.top.pc = t := by
  obtain ⟨htypes, hlog⟩ := pRun_log ok h
  obtain ⟨h1, -, -⟩ := pCycle_some hc
  obtain ⟨hnext, hpc', -, -⟩ := cycle_next (i := answers c tc b s i) h1 hn hr
  suffices o.nextAddr = t by exact ⟨this, by rw [hpc', this]⟩
  rw [nextAddr_find] at hnext
  obtain ⟨sl, hsl⟩ := slots_get' (c := c) (base := s.top.pc) (going := true) (i := answers c tc b s i) hk
  obtain ⟨-, hpc, hon', hty, htk, htg⟩ := sys_slot ok hl hn hsl
  have ho : sl.on = true := by rw [hon']; exact hon
  rw [htypes, type_exact htw (hfit k (Nat.le_refl k))] at hty
  have hcases : sl.ty ≠ .idirect ∧ sl.ty ≠ .nonctl ∧ sl.ty ≠ .ret ∧ sl.taken = true := by
    rw [htk, ho]
    rcases hjump with e | e <;> rw [hty, e] <;> exact ⟨by decide, by decide, by decide, rfl⟩
  obtain ⟨htab, hord⟩ := hlog (bankSel c (slotPc s.top.pc k))
  have htarget : sl.target = some t := by
    rw [htg ho, hpc, htab, target_exact hbw hbfit (fun u hu => ?_) hcases.1 hcases.2.1, htrained]
    · rfl
    · have : u ∈ ofBank c (bankSel c (slotPc s.top.pc k)) (retired is) := by rw [← hord]; exact List.mem_append_left _ hu
      unfold ofBank at this
      rw [List.mem_filter, beq_iff_eq] at this
      exact this
  have hf : (slots c s.top.pc true (answers c tc b s i)).find? decides = some sl := by
    refine find_prefix hsl (by unfold decides; rw [ho, hcases.2.2.2, htarget]; rfl) (fun j sj hj hsj => ?_)
    obtain ⟨-, -, -, htyj, htkj, -⟩ := sys_slot ok hl hn hsj
    rw [htypes, type_exact htw (hfit j (by omega)), hbefore j hj] at htyj
    unfold decides
    rw [htkj, htyj]
    simp [predTaken]
  rw [hf] at hnext
  simp only [if_neg hcases.2.2.1, htarget, Option.getD_some] at hnext
  exact hnext

/-- A cycle that retires `us`. -/
def tell (us : List Upd) : PIn := ⟨none, true, us.map some, fun _ => none⟩

/-- A cycle that redirects to `a`. -/
def goto (a : BitVec 32) : PIn := ⟨some a, true, [], fun _ => none⟩

/-- The jump of the small program retires. -/
def jalRetires : Upd := ⟨jalPc, true, .jal, 0x80000100#32, false, 0⟩

/-- The jump retires, its bank is trained, the front end is sent back to it: it is followed. -/
example : ((pRun cfg0 tcfg0 bcfg0 (pInit 0x80000000#32) [tell [jalRetires], tell [], goto jalPc, tell []]).map
    (fun p => p.2.map (fun o => o.nextAddr))).map (fun l => l.getLast?) = some (some 0x80000100#32) := by decide +kernel

/-- The hypotheses of `C100_follows` hold in that run. -/
example : TypeFits cfg0 tcfg0 [tell [jalRetires], tell [], goto jalPc] jalPc ∧
    TargetFits cfg0 bcfg0 [tell [jalRetires], tell [], goto jalPc] jalPc ∧
    lastType cfg0 tcfg0 [tell [jalRetires], tell [], goto jalPc] jalPc = .jal :=
  have h : ∀ u ∈ retired [tell [jalRetires], tell [], goto jalPc], u.pc = jalPc := by decide
  ⟨⟨⟨[jalPc], by decide, fun u hu _ => ⟨jalPc, by simp, by rw [h u hu]⟩⟩, by decide +kernel⟩,
   ⟨[jalPc], by decide, fun u hu _ _ _ => ⟨jalPc, by simp, by rw [h u hu]⟩⟩, by decide +kernel⟩

/-- The stray fetch.  The type of a jump is known one cycle after it retires, its target two cycles after: a fetch in between
goes to an address that is neither the next instruction nor the target of anything. -/
theorem C100_stray : ∃ (is : List PIn) (s s' : PSt) (os : List Out) (o : Out),
    pRun cfg0 tcfg0 bcfg0 (pInit jalPc) is = some (s, os) ∧ pCycle cfg0 tcfg0 bcfg0 s (tell []) = some (s', o) ∧
    s.top.pc = jalPc ∧ o.nextAddr = 0x20000008#32 ∧ (∀ u ∈ retired is, u.target ≠ 0x20000008#32) := by
  have h : ((pRun cfg0 tcfg0 bcfg0 (pInit jalPc) [⟨some jalPc, true, [some jalRetires], fun _ => none⟩]).bind
      (fun p => (pCycle cfg0 tcfg0 bcfg0 p.1 (tell [])).map (fun q => (p.1.top.pc, q.2.nextAddr)))) = some (jalPc, 0x20000008#32) := by
    decide +kernel
  obtain ⟨⟨s, os⟩, h1, h2⟩ := Option.bind_eq_some_iff.mp h
  obtain ⟨⟨s', o⟩, h3, h4⟩ := Option.map_eq_some_iff.mp h2
  simp only [Prod.mk.injEq] at h4
  exact ⟨_, s, s', os, o, h1, h3, h4.1, h4.2, by decide +kernel⟩

end Verif.Props

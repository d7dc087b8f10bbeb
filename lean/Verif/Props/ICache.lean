import Verif.Proofs.ICacheWait
import Verif.Spec.FetchStream
/-
C76 to C79: the instruction cache answers the request it has accepted, once, with the right words; its reads use numbers
that are free; and it waits only for others.
-/
namespace Verif.Props
open Verif.ICache
open Verif.FetchStream

variable {w : World} {s : Sys} {q : Option W32} {i : Cyc}

/-- What the front end gets in a cycle (ICacheTop.cpp:249-268). -/
def icResp (W : Nat) (s : Sys) (i : Cyc) : Option (Front.Resp W) := (s.cycle i).2.resp.map fun x => glue W x.1 x.2

/-! ### C76 -/

/-- C76: the instruction cache keeps the contract the front end relies on (`AnsOk`, Spec/FetchStream.lean): an answer
is for the request that is outstanding, and never comes in a cycle in which the requests are withdrawn. -/
theorem C76_answers (W : Nat) (h : Reach w s q) (hv : Valid w s i) :
    AnsOk (i.refetch || i.fenceI) q.toList i.req (icResp W s i) := by
  intro r hr
  unfold icResp at hr
  cases hx : (s.cycle i).2.resp with
  | none => rw [hx] at hr; cases hr
  | some x =>
    obtain ⟨pc, l⟩ := x
    rw [hx, Option.map_some, Option.some.injEq] at hr
    subst hr
    obtain ⟨h1, h2, h3, _⟩ := resp_ok (reach_inv h) hv hx
    refine ⟨by rw [h1, h2]; rfl, ?_⟩
    cases q with
    | some a => simpa [glue] using h3
    | none =>
      cases hr : i.req with
      | none => rw [hr] at h3; cases h3
      | some b => rw [hr] at h3; simpa [glue] using h3

/-- C76: each request is answered at most once: what is outstanding after the cycle is what the contract says. -/
theorem C76_once (W : Nat) (h : Reach w s q) (hv : Valid w s i) {w' : World} (hw : w.Next w' i) :
    ∃ q', Reach w' (s.cycle i).1 q' ∧ q'.toList = waiting i.kill q.toList i.req (icResp W s i) := by
  refine ⟨_, .step i h hv hw, ?_⟩
  have hone : ∀ a, q = some a → i.req = none := by
    intro a ha
    apply hv.noReq
    left
    have := (reach_inv h).req
    rw [ha] at this
    unfold outst at this
    split at this
    · assumption
    · cases this
  unfold waiting
  cases hk : i.kill with
  | true => simp
  | false =>
    have hsome : (icResp W s i).isSome = (s.cycle i).2.resp.isSome := by
      unfold icResp; cases (s.cycle i).2.resp <;> rfl
    rw [hsome]
    cases (s.cycle i).2.resp.isSome with
    | false =>
      cases q with
      | none => simp
      | some a => rw [hone a rfl]; simp
    | true =>
      cases q with
      | none => cases i.req <;> simp
      | some a => rw [hone a rfl]; simp

/-! ### C77 -/

/-- The lanes made of a right answer are right. -/
theorem lanes_glue (W : Nat) {pc : W32} {l : Option Line} (h : Answer w pc l) :
    Lanes w pc (glue W pc l).insts (glue W pc l).pf (glue W pc l).valid := by
  have hb : (pc &&& 63#32).toNat = pc.toNat % 64 := by
    rw [BitVec.toNat_and]
    exact Nat.and_two_pow_sub_one_eq_mod _ 6
  cases l with
  | none =>
    left
    refine ⟨h, fun j hj => ?_⟩
    simp only [glue, decide_eq_true_eq] at hj ⊢
    rw [if_pos hj]; rfl
  | some l =>
    right
    obtain ⟨p, h5, h6⟩ := h
    refine ⟨p, l, h5, h6, fun j => ⟨?_, ?_, ?_⟩⟩
    · simp [glue, hb]
    · simp [glue]
    · intro k hk
      simp only [glue, hb]
      rw [dif_pos (by have := k.isLt; omega)]
      congr 1
      exact Fin.ext hk.symm

/-- C77: the words of an answer are those of the line at the translated address, or the MMU says that fetching from the
page faults and the lanes are marked; the content of the line is what the data cache or, if the data cache missed it, the
memory has reported since the last `fence.i`. -/
theorem C77_words (W : Nat) (h : Reach w s q) (hv : Valid w s i) {r : Front.Resp W} (hr : icResp W s i = some r) :
    Lanes w r.pc r.insts r.pf r.valid := by
  unfold icResp at hr
  cases hx : (s.cycle i).2.resp with
  | none => rw [hx] at hr; cases hr
  | some x =>
    obtain ⟨pc, l⟩ := x
    rw [hx, Option.map_some, Option.some.injEq] at hr
    subst hr
    obtain ⟨_, _, _, h4⟩ := resp_ok (reach_inv h) hv hx
    exact lanes_glue W h4

/-! ### C78 -/

/-- C78: a read on the port has a number that no unanswered read has. -/
theorem C78_fresh (h : Reach w s q) (f : Offer) (hf : s.e.offer = some f) : s.e.owed f.tx = none := by
  have hc := (reach_inv h).ctl
  have htx : s.c.r.tx = some f.tx ∧ s.c.r.busy = false := by
    cases hh : f.held
    · exact ⟨(hc.offer f hf hh).2.2.1, (hc.offer f hf hh).2.1⟩
    · exact ⟨(hc.held f hf hh).2, (hc.sh.cw (hc.held f hf hh).1).2.1⟩
  have := hc.sh.onB _ htx.1
  rw [hc.owed, htx.2] at this
  simpa using this

/-- C78: an answer shown in a cycle without a redirect is taken in that cycle. -/
theorem C78_taken (h : Reach w s q) (hv : Valid w s i) (h1 : i.refetch = false) (h2 : i.fenceI = false) {t : Tx} {d : Line}
    (hr : i.mResp = some (t, d)) : (s.cycle i).1.e.owed t = none := by
  have hi := reach_inv h
  have hm := Mid.of_ctl hi.ctl hv
  have hk : (call1 s.e i).kill = false := by rw [call1_kill, h1, h2]; rfl
  have hT : i.T = some t := by simp [Cyc.T, hr]
  have hg := went hi.ctl hm (same1 s.e i) hk
  rw [← Option.not_isSome_iff_eq_none]
  cases hiv : i.inval with
  | false =>
    rw [cycle_one s i hiv, owed_next]
    exact fun hx => hx.1 ⟨hg.mrr (by rw [hT]; simp), hT⟩
  | true =>
    rw [cycle_two s i hiv, owed_next]
    have hk2 : (call2 s.e i).kill = true := by simp [TopIn.kill, call2]
    have ho := killed_out (hg.mid hi.ctl hm) (same2 s.e i) hk2
    refine fun hx => hx.1 ⟨(ho.2.2.2.2 t hT).2 ?_, hT⟩
    rintro ⟨ha, hb⟩
    have h3 := hg.sh.onB t ha
    rw [hb, hg.infl] at h3
    exact h3.1 hT

/-- C78: after a redirect every answer is taken in the next cycle, whatever happens in it. -/
theorem C78_taken_after (h : Reach w s q) (hv : Valid w s i) (h1 : i.refetch = true ∨ i.fenceI = true) {w' : World} (hw : w.Next w' i)
    {i' : Cyc} (hv' : Valid w' (s.cycle i).1 i') {t : Tx} {d : Line} (hr : i'.mResp = some (t, d)) :
    ((s.cycle i).1.cycle i').1.e.owed t = none := by
  by_cases hk' : i'.refetch = false ∧ i'.fenceI = false
  · exact C78_taken (.step i h hv hw) hv' hk'.1 hk'.2 hr
  have hi := reach_inv h
  have hm := Mid.of_ctl hi.ctl hv
  have hiv : i.inval = false := by
    rw [← Bool.not_eq_true]; intro hx
    have := hv.inval hx
    rw [this.1, this.2] at h1
    rcases h1 with h | h <;> cases h
  have hk : (call1 s.e i).kill = true := by rw [call1_kill]; simpa using h1
  have hb := (killed hm (same1 s.e i) hk).busy
  have hi2 := inv_step hi hv hw
  have hm2 := Mid.of_ctl hi2.ctl hv'
  have hk2 : (call1 (s.cycle i).1.e i').kill = true := by
    rw [call1_kill]
    rw [Bool.or_eq_true]
    by_cases ha : i'.refetch = true
    · exact .inl ha
    · right
      rw [← Bool.not_eq_false]
      exact fun hx => hk' ⟨by simpa using ha, hx⟩
  have hiv' : i'.inval = false := by
    rw [← Bool.not_eq_true]; intro hx
    exact hk' (hv'.inval hx)
  have hT : i'.T = some t := by simp [Cyc.T, hr]
  rw [← Option.not_isSome_iff_eq_none, cycle_one _ i' hiv', owed_next]
  have ho := killed_out hm2 (same1 _ i') hk2
  refine fun hx => hx.1 ⟨(ho.2.2.2.2 t hT).2 ?_, hT⟩
  rw [cycle_one s i hiv]
  rintro ⟨_, hb'⟩
  rw [hb] at hb'; cases hb'

/-! ### C79 -/

/-- C79: of the cycles in which a request is neither answered nor withdrawn, at most 52 are not spent waiting for the
MMU, for a free number, for the read to be accepted or for its answer. -/
theorem C79_bounded {pc : W32} (h : Reach w s (some pc)) {n : Nat} {s1 : Sys} (hw : Waits w pc s n s1) : n ≤ 52 := by
  have := waits_rank (reach_inv h) hw
  have := rank_le s
  omega


/-! ### A run -/

namespace ICacheRun

/-- The data cache has the lines below `0x40`. -/
def inDc (a : W32) : Bool := decide (a.toNat % 4096 < 64)

/-- Page 1 faults, the others are translated. -/
def tr (v : Ppn) : Xlat := if v = 1#20 then .fault else .page (v + 5#20)

def memLine (a : W32) : Line := fun k => a ^^^ BitVec.ofNat 32 (1000 + k.val)

def world : World where
  xlat v x := x = tr v
  hit a d := inDc a = true ∧ d = a + a
  miss a := inDc a = false
  mem a l := l = memLine a

/-- One cycle of a script: what the front end would request, whether it is redirected, whether the memory keeps quiet. -/
structure Do where
  rq : Option W32 := none
  rf : Bool := false
  slow : Bool := false

/-- The surroundings accept at once and, unless told otherwise, answer at once. -/
def drive (s : Sys) (d : Do) : Cyc :=
  { req := if peek s.c false && !d.rf then d.rq else none
    refetch := d.rf
    mmu := fun v => some (tr v)
    mReady := true
    acc := s.e.offer.isSome
    mResp := if d.slow then none
      else (List.finRange 16).findSome? fun t => (s.e.owed t).map fun x => (t, memLine x.1)
    probe := match s.e.p2 with
      | some (a, _) => if inDc a then some (a + a) else none
      | none => none }

theorem drive_valid (s : Sys) (d : Do) : Valid world s (drive s d) := by
  refine ⟨?_, ?_, ?_, ?_, ?_, ?_⟩
  · intro v x h
    simp only [drive, Option.some.injEq] at h
    exact h.symm
  · intro t l h
    left
    simp only [drive] at h
    split at h
    · cases h
    obtain ⟨t', _, h⟩ := List.exists_of_findSome?_eq_some h
    rw [Option.map_eq_some_iff] at h
    obtain ⟨⟨a, f⟩, h1, h2⟩ := h
    cases h2
    exact ⟨a, f, h1, fun _ => rfl⟩
  · intro a h
    simp only [drive, h]
    by_cases hd : inDc a = true
    · rw [if_pos hd]; exact ⟨hd, rfl⟩
    · rw [if_neg hd]; exact (Bool.not_eq_true _).mp hd
  · intro h; exact h
  · intro h
    simp only [drive] at h
    split at h
    · rename_i hc
      simp only [Bool.and_eq_true, Bool.not_eq_true'] at hc
      exact ⟨hc.1, hc.2, rfl⟩
    · cases h
  · intro h; cases h

/-- A number of cycles. -/
def go : List Do → Sys × Option W32 → Sys × Option W32
  | [], x => x
  | d :: l, (s, q) =>
    let i := drive s d
    let y := s.cycle i
    go l (y.1, if i.kill || y.2.resp.isSome then none else q.or i.req)

theorem go_reach {l : List Do} {x : Sys × Option W32} (h : Reach world x.1 x.2) :
    Reach world (go l x).1 (go l x).2 := by
  induction l generalizing x with
  | nil => exact h
  | cons a l ih =>
    exact ih (.step _ h (drive_valid _ a) ⟨fun _ => rfl, fun _ => ⟨rfl, rfl, rfl⟩⟩)

def idle (n : Nat) : List Do := List.replicate n ({} : Do)

/-- The state after the cycles `l`. -/
def at' (l : List Do) : Sys × Option W32 := go l ({}, none)

theorem at_reach (l : List Do) : Reach world (at' l).1 (at' l).2 := go_reach (.init _)

/-- One request for `pc`, then `n` cycles. -/
def ask (pc : W32) (n : Nat) : List Do := {} :: { rq := some pc } :: idle n

/-- C76, C77: a line the data cache does not have is read from memory; the answer comes four cycles after the request.
The group is at the end of the line: two of four lanes are valid. -/
example : Reach world (at' (ask 0x2078#32 3)).1 (some 0x2078#32) ∧
    Valid world (at' (ask 0x2078#32 3)).1 (drive (at' (ask 0x2078#32 3)).1 {}) ∧
    (icResp 4 (at' (ask 0x2078#32 3)).1 (drive (at' (ask 0x2078#32 3)).1 {})).map
        (fun r => (r.pc, List.ofFn r.valid, List.ofFn r.pf, r.insts 0, r.insts 1)) =
      some (0x2078#32, [true, true, false, false], [false, false, false, false], memLine 0x7040#32 14,
        memLine 0x7040#32 15) := by
  have hq : (at' (ask 0x2078#32 3)).2 = some 0x2078#32 := by decide +kernel
  have h := at_reach (ask 0x2078#32 3)
  rw [hq] at h
  exact ⟨h, drive_valid _ _, by decide +kernel⟩

/-- C76, C77: after that, a request for the line is answered in the cycle it is made. -/
example : (icResp 2 (at' (ask 0x2078#32 4)).1 (drive (at' (ask 0x2078#32 4)).1 { rq := some 0x2044#32 })).map
      (fun r => (r.pc, r.insts 0, r.insts 1)) =
    some (0x2044#32, memLine 0x7040#32 1, memLine 0x7040#32 2) := by decide +kernel

/-- C77: a line the data cache has. -/
example : (icResp 2 (at' (ask 0x2008#32 48)).1 (drive (at' (ask 0x2008#32 48)).1 {})).map
      (fun r => (r.pc, r.insts 0, r.insts 1)) =
    some (0x2008#32, 0x7008#32 + 0x7008#32, 0x700c#32 + 0x700c#32) := by decide +kernel

/-- C77: a request for a page that faults is answered in the cycle it is made, with marked lanes. -/
example : (icResp 2 (at' [{}]).1 (drive (at' [{}]).1 { rq := some 0x1044#32 })).map (fun r => (r.pc, List.ofFn r.pf)) =
    some (0x1044#32, [true, true]) := by decide +kernel

/-- A read accepted and withdrawn, then another one. -/
def two : List Do :=
  [{}, { rq := some 0x2078#32 }, {}, {}, { rf := true, slow := true }, { slow := true },
    { rq := some 0x30c0#32, slow := true }, { slow := true }, { slow := true }]

/-- C78: a read on the port, while an older one, withdrawn by a redirect, is not answered. -/
example : Reach world (at' two).1 (some 0x30c0#32) ∧
    (at' two).1.e.offer.map (fun f => (f.addr, f.tx)) = some (0x80c0#32, 1) ∧
    ((at' two).1.e.owed 0).map (·.1) = some 0x7040#32 := by
  have hq : (at' two).2 = some 0x30c0#32 := by decide +kernel
  have h := at_reach two
  rw [hq] at h
  exact ⟨h, by decide +kernel, by decide +kernel⟩

/-- C78: the answer to the withdrawn read is shown (and taken) while the new one is on the port. -/
example : (drive (at' two).1 {}).refetch = false ∧ (drive (at' two).1 {}).fenceI = false ∧
    (drive (at' two).1 {}).mResp.map (·.1) = some 0 := by decide +kernel

/-- C78: a redirect in the cycle in which the answer is shown; it is shown again. -/
example : let s := (at' (ask 0x2078#32 3)).1
    Valid world s (drive s { rf := true }) ∧ (drive s { rf := true }).refetch = true ∧
      (drive s { rf := true }).mResp.map (·.1) = some 0 ∧
      let s' := (s.cycle (drive s { rf := true })).1
      Valid world s' (drive s' { rf := true }) ∧ (s'.e.owed 0).isSome = true ∧
        (drive s' { rf := true }).mResp.map (·.1) = some 0 :=
  ⟨drive_valid _ _, by decide +kernel, by decide +kernel, drive_valid _ _, by decide +kernel, by decide +kernel⟩

instance (s : Sys) (pc : W32) (i : Cyc) : Decidable (Excused s pc i) := by
  unfold Excused; split <;> infer_instance

/-- Cycles without an answer, with the number of those that are not excused. -/
def wait (pc : W32) : Nat → Nat × Sys → Option (Nat × Sys)
  | 0, x => some x
  | k + 1, (n, s) =>
    let i := drive s {}
    if (s.cycle i).2.resp.isNone then wait pc k (if Excused s pc i then n else n + 1, (s.cycle i).1) else none

theorem wait_waits {pc : W32} {k : Nat} {s0 : Sys} {x y : Nat × Sys} (h : Waits world pc s0 x.1 x.2)
    (e : wait pc k x = some y) : Waits world pc s0 y.1 y.2 := by
  induction k generalizing x with
  | zero => simp only [wait, Option.some.injEq] at e; subst e; exact h
  | succ k ih =>
    obtain ⟨n, s⟩ := x
    simp only [wait] at e
    split at e
    · rename_i hr
      rw [Option.isNone_iff_eq_none] at hr
      refine ih ?_ e
      dsimp only
      split
      · rename_i hx
        exact .excused _ h (drive_valid _ _) rfl hr hx
      · rename_i hx
        exact .step _ h (drive_valid _ _) rfl hr hx
    · cases e

/-- C79: a line the data cache has: 48 cycles that are not excused. -/
example : ∃ s1, Reach world (at' (ask 0x2008#32 0)).1 (some 0x2008#32) ∧
    Waits world 0x2008#32 (at' (ask 0x2008#32 0)).1 48 s1 := by
  have hq : (at' (ask 0x2008#32 0)).2 = some 0x2008#32 := by decide +kernel
  have h := at_reach (ask 0x2008#32 0)
  rw [hq] at h
  have hw : (wait 0x2008#32 48 (0, (at' (ask 0x2008#32 0)).1)).map (·.1) = some 48 := by decide +kernel
  rw [Option.map_eq_some_iff] at hw
  obtain ⟨y, h1, h2⟩ := hw
  have := wait_waits (s0 := (at' (ask 0x2008#32 0)).1) (x := (0, (at' (ask 0x2008#32 0)).1)) (.nil _) h1
  rw [h2] at this
  exact ⟨y.2, h, this⟩

end ICacheRun

end Verif.Props

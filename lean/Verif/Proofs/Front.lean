import Verif.Proofs.FrontStep
import Verif.Spec.FetchStream

/-! The front end's queues hold consecutive groups of one predicted path. -/
namespace Verif.Front
open Verif.FetchStream
variable {W : Nat} {M : Type}

/-- Each group starts where the one before says: from `a` through the groups (start, next) to `e`. -/
def Chain (a : W32) : List (W32 × W32) → W32 → Prop
  | [], e => e = a
  | (b, n) :: t, e => b = a ∧ Chain n t e

theorem chain_append {l1 l2 : List (W32 × W32)} {a e : W32} :
    Chain a (l1 ++ l2) e ↔ ∃ b, Chain a l1 b ∧ Chain b l2 e := by
  induction l1 generalizing a with
  | nil => simp [Chain]
  | cons x t ih =>
    obtain ⟨b, n⟩ := x
    simp only [List.cons_append, Chain, ih]
    constructor
    · rintro ⟨h1, c, h2, h3⟩; exact ⟨c, ⟨h1, h2⟩, h3⟩
    · rintro ⟨c, ⟨h1, h2⟩, h3⟩; exact ⟨h1, c, h2, h3⟩

variable [NeZero W]

def oKey (o : Out W M) : W32 × W32 := (o.pc 0, o.next)
def pKey (p : Pred W M) : W32 × W32 := (p.base 0, p.next)

/-- Made of an answer of the instruction cache. -/
def Made (k : Cfg) (rs : List (Resp W)) (o : Out W M) : Prop :=
  ∃ r ∈ rs, ∃ p : Pred W M, (∀ j, p.base j = r.pc + BitVec.ofNat 32 (j.val * 4)) ∧ o = mkOut (mkGroup k r) p

structure Inv (k : Cfg) (tr : List (Ev W M)) (s : St W M) (q : List W32) : Prop where
  lat : Lat k s
  base : ∀ p ∈ s.ptab, ∀ j, p.base j = p.base 0 + BitVec.ofNat 32 (j.val * 4)
  made : ∀ o ∈ s.f2b, Made k (answers tr) o
  path : ∃ e, Chain (want k.resetPc tr) (s.f2b.map oKey) e ∧
    (∀ a, s.preRefetch = some a → e = a) ∧
    (s.preRefetch = none → Chain e (s.ptab.map pKey) s.pc ∧
      s.ptab.map (fun p => p.base 0) = s.inst.map (fun g => g.pc 0) ++ q ++ s.fetch ∧
      ∀ g ∈ s.inst, ∃ r ∈ answers tr, g = mkGroup k r)

theorem inv_init (k : Cfg) : Inv k [] (St.init k : St W M) [] := by
  refine ⟨?_, ?_, ?_, k.resetPc, rfl, ?_, ?_⟩
  · constructor <;> simp [St.init]
  · simp [St.init]
  · simp [St.init]
  · simp [St.init]
  · intro _
    exact ⟨rfl, rfl, by simp [St.init]⟩

/-- What a cycle hands over. -/
def OutOk (k : Cfg) (tr : List (Ev W M)) (resp : Option (Resp W)) (out : Option (Out W M)) : Prop :=
  ∀ g, out = some g → g.pc 0 = want k.resetPc tr ∧ Made k (resp.toList ++ answers tr) g

/-- Handing over the first group of a list keeps the path. -/
theorem deliver {k : Cfg} {tr : List (Ev W M)} {F : List (Out W M)} {e : W32} (rd : Bool) (resp : Option (Resp W))
    (hc : Chain (want k.resetPc tr) (F.map oKey) e) (hm : ∀ o ∈ F, Made k (resp.toList ++ answers tr) o)
    (out : Option (Out W M)) (ho : out = if rd then F.head? else none) :
    Chain (want k.resetPc (⟨false, none, resp, out⟩ :: tr)) ((if rd then F.tail else F).map oKey) e ∧
      (∀ o ∈ (if rd then F.tail else F), Made k (answers (⟨false, none, resp, out⟩ :: tr)) o) ∧
      OutOk k tr resp out := by
  cases rd with
  | false =>
    subst ho
    refine ⟨by simpa [want] using hc, by simpa [answers] using hm, ?_⟩
    intro g hg; simp at hg
  | true =>
    cases F with
    | nil =>
      subst ho
      refine ⟨by simpa [want] using hc, by simp, ?_⟩
      intro g hg; simp at hg
    | cons x t =>
      subst ho
      obtain ⟨h1, h2⟩ := hc
      refine ⟨by simpa [want] using h2, ?_, ?_⟩
      · intro o hO
        have := hm o (by simp at hO; simp [hO])
        simpa [answers] using this
      · intro g hg
        simp at hg
        subst hg
        exact ⟨h1, hm x (by simp)⟩

theorem newPred_base {s : St W M} {i : Inp W M} (hg : gRefetch s i = false) :
    (newPred s i).base 0 = s.pc := by
  simp [newPred, predBase_live hg]

/-- A cycle without reset or redirect, in a state of the invariant. -/
theorem live_ok {k : Cfg} (hcap : k.ptabCap - 1 ≤ k.instCap) {tr : List (Ev W M)} {s : St W M} {q : List W32}
    (h : Inv k tr s q) (i : Inp W M) (hr : i.reset = false) (hg : gRefetch s i = false) :
    ∃ m fetch', front1 k s i = some m ∧
      m.icReq.toList ++ fetch' = s.fetch ++ (if writes s then [s.pc] else []) ∧
      ∀ resp, AnsOk false q m.icReq resp →
        (s.ptab ++ (if writes s then [newPred s i] else [])).map (fun p => p.base 0) =
          (s.inst ++ news k resp).map (fun g => g.pc 0) ++ waiting false q m.icReq resp ++ fetch' ∧
        (∀ g ∈ s.inst ++ news k resp, ∃ r ∈ resp.toList ++ answers tr, g = mkGroup k r) ∧
        (∀ g p, (s.inst ++ news k resp).head? = some g → s.ptab.head? = some p → ∀ j, g.pc j = p.base j) ∧
        ∃ s' o, front2 k s i m resp = some (s', o) ∧ s'.fetch = fetch' ∧ Live k s i resp s' o := by
  have hrf := refetch_live hg
  have hpre : s.preRefetch = none := by
    revert hg; simp only [gRefetch, hrf]; cases s.preRefetch <;> simp
  obtain ⟨m, fetch', h1, h2, h3⟩ := cycle_live (k := k) h.lat hr hg
  refine ⟨m, fetch', h1, h2, fun resp ha => ?_⟩
  obtain ⟨e, c1, _, c3⟩ := h.path
  obtain ⟨c3, c4, c5⟩ := c3 hpre
  -- the predictions and the groups on their way, after this cycle's request and answer
  let new := if writes s then [newPred s i] else []
  have hnew : new.map (fun p => p.base 0) = if writes s then [s.pc] else [] := by
    simp only [new]; split <;> simp [newPred_base hg]
  have hE : (s.ptab ++ new).map (fun p => p.base 0) =
      (s.inst ++ news k resp).map (fun g => g.pc 0) ++ waiting false q m.icReq resp ++ fetch' := by
    rw [List.map_append, hnew, c4, List.append_assoc _ s.fetch, ← h2]
    cases hresp : resp with
    | none => simp [news, waiting]
    | some r =>
      have hh := (ha r hresp).2
      have : q ++ m.icReq.toList = r.pc :: (q ++ m.icReq.toList).tail := by
        revert hh
        cases q ++ m.icReq.toList with
        | nil => simp
        | cons a t => simp +contextual
      have h0 : (mkGroup k r).pc 0 = r.pc := by simp [mkGroup]
      simp only [news, Option.map_some, Option.toList_some, List.map_append, List.map_cons, List.map_nil, waiting,
        Option.isSome_some, if_true, Bool.false_eq_true, if_false, h0]
      rw [← List.append_assoc (s.inst.map _ ++ q), List.append_assoc (s.inst.map _) q, this]
      simp
  have hnl : resp.isSome = true → s.inst.length < k.instCap := by
    intro hs
    obtain ⟨r, hresp⟩ := Option.isSome_iff_exists.mp hs
    have hlen := congrArg List.length hE
    simp only [List.length_map, List.length_append, hresp, news, Option.map_some, Option.toList_some,
      List.length_cons, List.length_nil] at hlen
    have hp : s.ptab.length + new.length ≤ k.ptabCap - 1 := by
      have := h.lat.ptabLen
      cases hw : writes s with
      | false => simp [new, hw]; omega
      | true =>
        have h' := hw
        simp only [writes, h.lat.ptabFull, Bool.and_eq_true, Bool.not_eq_true', decide_eq_false_iff_not] at h'
        simp [new, hw]; omega
    omega
  have hgrp : ∀ g ∈ s.inst ++ news k resp, ∃ r ∈ resp.toList ++ answers tr, g = mkGroup k r := by
    intro g hgm
    rcases List.mem_append.mp hgm with hm | hm
    · obtain ⟨r, hr1, hr2⟩ := c5 g hm
      exact ⟨r, List.mem_append.mpr (.inr hr1), hr2⟩
    · cases hresp : resp with
      | none => simp [news, hresp] at hm
      | some r =>
        simp [news, hresp] at hm
        exact ⟨r, by simp, hm⟩
  have hmatch : ∀ g p, (s.inst ++ news k resp).head? = some g → s.ptab.head? = some p → ∀ j, g.pc j = p.base j := by
    intro g p hg1 hp1 j
    have h0 : p.base 0 = g.pc 0 := by
      have := congrArg List.head? hE
      rw [List.map_append, List.append_assoc] at this
      cases hpt : s.ptab with
      | nil => simp [hpt] at hp1
      | cons a t =>
        cases hin : s.inst ++ news k resp with
        | nil => simp [hin] at hg1
        | cons b t' =>
          rw [hpt, hin] at this
          simp only [hpt, hin, List.head?_cons, Option.some.injEq] at hp1 hg1
          subst hp1; subst hg1
          simpa using this
    obtain ⟨r, _, hr2⟩ := hgrp g (List.mem_of_mem_head? hg1)
    have hb := h.base p (List.mem_of_mem_head? hp1) j
    rw [hb, h0, hr2]
    simp [mkGroup]
  exact ⟨hE, hgrp, hmatch, h3 resp hnl hmatch⟩

theorem step_ok {k : Cfg} (hcap : k.ptabCap - 1 ≤ k.instCap) {tr : List (Ev W M)} {s : St W M} {q : List W32}
    (h : Inv k tr s q) (i : Inp W M) :
    ∃ m, front1 k s i = some m ∧ ∀ resp, AnsOk (i.reset || gRefetch s i) q m.icReq resp →
      ∃ s' o, front2 k s i m resp = some (s', o) ∧
        Inv k (⟨i.reset, if i.refetch then some i.refetchAddr else none, resp, o.out⟩ :: tr) s'
          (waiting (i.reset || gRefetch s i || o.inval) q m.icReq resp) ∧
        (o.out.isSome = true → i.reset = false ∧ i.refetch = false) ∧
        OutOk k tr resp o.out := by
  cases hk : (i.reset || gRefetch s i) with
  | true =>
    obtain ⟨m, h1, h2, h3⟩ := cycle_kill (k := k) h.lat hk
    refine ⟨m, h1, fun resp ha => ?_⟩
    have hn : resp = none := by
      cases resp with
      | none => rfl
      | some r => exact absurd (ha r rfl).1 (by simp)
    obtain ⟨s', o, e1, e2, e3, e4, e5, e6, e7, e8, e9, e10⟩ := h3 resp hn
    subst hn
    refine ⟨s', o, e1, ?_, ?_, ?_⟩
    · by_cases hb : (i.reset || i.refetch) = true
      · have hout : o.out = none := by
          rw [e9]; revert hb; cases i.reset <;> cases i.refetch <;> simp
        have hf : s'.f2b = [] := by rw [e10]; simp only [hb, if_true]
        have hpc : s'.pc = want k.resetPc
            (⟨i.reset, if i.refetch then some i.refetchAddr else none, none, o.out⟩ :: tr) := by
          rw [e8]
          cases hr : i.reset with
          | true => simp [want]
          | false =>
            have : i.refetch = true := by rw [hr] at hb; simpa using hb
            simp [want, this, gAddr]
        refine ⟨e2, by simp [e5], by simp [hf], s'.pc, by rw [hf]; exact hpc, by simp [e6], ?_⟩
        · intro _
          rw [e5, e3, e4]
          exact ⟨rfl, by simp [waiting], by simp⟩
      · have hb' : i.reset = false ∧ i.refetch = false := by
          revert hb; cases i.reset <;> cases i.refetch <;> simp
        have hpre : s.preRefetch = some (gAddr s i) := by
          rw [hb'.1] at hk
          simp only [gRefetch, hb'.2, Bool.false_or, Option.isSome_iff_exists] at hk
          obtain ⟨a, ha⟩ := hk
          simp [gAddr, hb'.2, ha]
        obtain ⟨e, c1, c2, _⟩ := h.path
        have he := c2 _ hpre
        have hm : ∀ o ∈ s.f2b, Made k ((none : Option (Resp W)).toList ++ answers tr) o := by simpa using h.made
        have hd := deliver i.readEn none c1 hm o.out (by simpa [hb'.1, hb'.2] using e9)
        rw [hb'.1, hb'.2]
        simp only [hb'.1, hb'.2, Bool.or_self, Bool.false_eq_true, if_false] at e10 e8 ⊢
        refine ⟨e2, by simp [e5], by rw [e10]; exact hd.2.1, e, by rw [e10]; exact hd.1, by simp [e6], ?_⟩
        intro _
        rw [e5, e3, e4]
        refine ⟨?_, ?_, by simp⟩
        · show s'.pc = e
          rw [e8, he]
        · simp [waiting]
    · intro hs
      rw [e9] at hs
      revert hs
      cases i.reset <;> cases i.refetch <;> simp
    · intro g hg
      by_cases hb : (!i.reset && !i.refetch && i.readEn) = true
      · obtain ⟨e, c1, c2, _⟩ := h.path
        have hm : ∀ o ∈ s.f2b, Made k ((none : Option (Resp W)).toList ++ answers tr) o := by simpa using h.made
        exact (deliver true none c1 hm o.out (by rw [e9]; simp only [hb, if_true])).2.2 g hg
      · rw [e9] at hg; simp only [hb] at hg; simp at hg
  | false =>
    have hr : i.reset = false := by revert hk; cases i.reset <;> simp
    have hg : gRefetch s i = false := by rw [hr] at hk; simpa using hk
    have hrf := refetch_live hg
    have hpre : s.preRefetch = none := by
      revert hg; simp only [gRefetch, hrf]; cases s.preRefetch <;> simp
    obtain ⟨m, fetch', h1, h2, h3⟩ := live_ok hcap h i hr hg
    refine ⟨m, h1, fun resp ha => ?_⟩
    obtain ⟨e, c1, _, c3⟩ := h.path
    obtain ⟨c3, c4, c5⟩ := c3 hpre
    let new := if writes s then [newPred s i] else []
    obtain ⟨hE, hgrp, hmatch, s', o, e1, e2, hL⟩ := h3 resp ha
    have hbase : ∀ p ∈ s.ptab ++ new, ∀ j, p.base j = p.base 0 + BitVec.ofNat 32 (j.val * 4) := by
      intro p hp j
      rcases List.mem_append.mp hp with hm | hm
      · exact h.base p hm j
      · simp only [new] at hm
        split at hm
        · simp at hm
          subst hm
          simp [newPred]
        · simp at hm
    have hchain : ∀ a P, Chain a (P.map pKey) s.pc → Chain a ((P ++ new).map pKey) s'.pc := by
      intro a P hc
      rw [hL.pc, List.map_append, chain_append]
      refine ⟨s.pc, hc, ?_⟩
      simp only [new]
      split
      · exact ⟨newPred_base hg, rfl⟩
      · rfl
    have hmade0 : ∀ o ∈ s.f2b, Made k (resp.toList ++ answers tr) o := by
      intro o ho
      obtain ⟨r, hr1, hr2⟩ := h.made o ho
      exact ⟨r, List.mem_append.mpr (.inr hr1), hr2⟩
    have hans : ∀ out, answers (⟨false, none, resp, out⟩ :: tr) = resp.toList ++ answers tr := by
      intro out; simp [answers]
    refine ⟨s', o, e1, ?_, ?_, ?_⟩
    · rw [hr, hrf, hL.inval]
      simp only [Bool.false_eq_true, if_false, Bool.false_or]
      rcases hL.act with ⟨_, a1, a2, a3, a4, a5⟩ | ⟨g, p, P, _, b1, b2, b3, b4, b5, b6⟩
      · have hd := deliver i.readEn resp c1 hmade0 o.out a4
        refine ⟨hL.lat, by rw [a2]; exact hbase, by rw [a5]; exact hd.2.1, e, by rw [a5]; exact hd.1,
          by simp [a3], fun _ => ⟨by rw [a2]; exact hchain _ _ c3, ?_, ?_⟩⟩
        · rw [a1, a2, a3, e2]; exact hE
        · rw [a1, hans]; exact hgrp
      · obtain ⟨d1, d2⟩ : e = p.base 0 ∧ Chain p.next (P.map pKey) s.pc := by
          rw [b2] at c3
          exact ⟨c3.1.symm, c3.2⟩
        have hgm : g ∈ s.inst ++ news k resp := by rw [b1]; simp
        obtain ⟨r, hr1, hr2⟩ := hgrp g hgm
        have hmt := hmatch g p (by rw [b1]; rfl) (by rw [b2]; rfl)
        have hc' : Chain (want k.resetPc tr) ((s.f2b ++ [mkOut g p]).map oKey) (mkOut g p).next := by
          rw [List.map_append, chain_append]
          exact ⟨e, c1, d1.symm, rfl⟩
        have hm' : ∀ o ∈ s.f2b ++ [mkOut g p], Made k (resp.toList ++ answers tr) o := by
          intro o ho
          rcases List.mem_append.mp ho with hm | hm
          · exact hmade0 o hm
          · simp at hm
            refine ⟨r, hr1, p, ?_, by rw [hm, hr2]⟩
            intro j
            rw [← hmt j, hr2]; rfl
        have hd := deliver i.readEn resp hc' hm' o.out b5
        refine ⟨hL.lat, ?_, by rw [b6]; exact hd.2.1, (mkOut g p).next, by rw [b6]; exact hd.1, ?_, ?_⟩
        · rw [b3]
          intro p' hp'
          refine hbase p' ?_
          rw [b2]
          simp only [List.cons_append, List.mem_cons]
          exact .inr hp'
        · intro a ha'
          rw [b4] at ha'
          split at ha'
          · exact Option.some.inj ha'
          · simp at ha'
        · intro hn
          have hne : p.next = (mkOut g p).next := by
            rw [b4] at hn
            split at hn
            · simp at hn
            · rename_i h; exact Decidable.not_not.mp h
          refine ⟨?_, ?_, ?_⟩
          · rw [b3, ← hne]; exact hchain _ _ d2
          · rw [hn, b3, e2]
            have := hE
            rw [b1, b2] at this
            simp only [List.cons_append, List.map_cons, List.cons.injEq] at this
            exact this.2
          · rw [hans]
            intro g' hg'
            exact hgrp g' (by rw [b1]; exact List.mem_cons_of_mem _ hg')
    · intro _; exact ⟨hr, hrf⟩
    · rcases hL.act with ⟨_, a1, a2, a3, a4, a5⟩ | ⟨g, p, P, _, b1, b2, b3, b4, b5, b6⟩
      · exact (deliver i.readEn resp c1 hmade0 o.out a4).2.2
      · obtain ⟨d1, d2⟩ : e = p.base 0 ∧ Chain p.next (P.map pKey) s.pc := by
          rw [b2] at c3
          exact ⟨c3.1.symm, c3.2⟩
        have hgm : g ∈ s.inst ++ news k resp := by rw [b1]; simp
        obtain ⟨r, hr1, hr2⟩ := hgrp g hgm
        have hmt := hmatch g p (by rw [b1]; rfl) (by rw [b2]; rfl)
        have hc' : Chain (want k.resetPc tr) ((s.f2b ++ [mkOut g p]).map oKey) (mkOut g p).next := by
          rw [List.map_append, chain_append]
          exact ⟨e, c1, d1.symm, rfl⟩
        refine (deliver i.readEn resp hc' ?_ o.out b5).2.2
        intro o ho
        rcases List.mem_append.mp ho with hm | hm
        · exact hmade0 o hm
        · simp at hm
          refine ⟨r, hr1, p, ?_, by rw [hm, hr2]⟩
          intro j
          rw [← hmt j, hr2]; rfl

theorem inv_run {k : Cfg} (hcap : k.ptabCap - 1 ≤ k.instCap) {tr : List (Ev W M)} {s : St W M} {q : List W32}
    (h : Run k tr s q) : Inv k tr s q := by
  induction h with
  | init => exact inv_init k
  | step i m resp _ h1 h2 h3 ih =>
    obtain ⟨m', e1, e2⟩ := step_ok hcap ih i
    rw [h1] at e1
    obtain rfl := Option.some.inj e1
    obtain ⟨s', o, f1, f2, _⟩ := e2 resp h2
    rw [h3] at f1
    obtain ⟨rfl, rfl⟩ := Prod.mk.inj (Option.some.inj f1)
    exact f2

end Verif.Front

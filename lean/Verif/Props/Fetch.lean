import Verif.Props.ICache
import Verif.Props.Front
import Verif.Spec.FetchRun
/-
C80: the front end together with its instruction cache.
-/
namespace Verif.Props
open Verif.ICache
open Verif.Fetch
open Verif.FetchStream
open Verif.Front (Cfg St Inp Obs Resp front1 front2 gRefetch qRead qCalc qComb qAcc rdOf fetchRead fetchByp)

variable {W : Nat} {M : Type}

/-! ### What the front end asks of the cache -/

theorem qRead_none {α : Type} {cap : Nat} {rst rf : Bool} {l : List α} {x : Front.Rd α × Front.Req α × Option α}
    (h : qRead cap rst rf false l = some x) : x.2.2 = none := by
  have hq : ∀ r : Front.Rd α, ∃ z, qComb (⟨rst, rf, false, none⟩ : Front.QIn α) r = some (z, none) := by
    intro r; unfold qComb; cases rst <;> simp
  unfold qRead at h
  simp only [bind, Option.bind_eq_some_iff] at h
  obtain ⟨⟨r', q', o⟩, h1, h2⟩ := h
  obtain ⟨q'', _, h3⟩ := h2
  cases h3
  unfold qCalc at h1
  obtain ⟨z, hz⟩ := hq (rdOf l)
  rw [hz] at h1
  simp only [bind, Option.bind_eq_some_iff] at h1
  obtain ⟨_, h0, h1⟩ := h1
  cases h0
  obtain ⟨_, _, h4⟩ := h1
  cases h4
  rfl

/-- A request is sent only to a ready cache, and not during a redirect. -/
theorem icReq_ready {k : Cfg} {s : St W M} {i : Inp W M} {m : Front.Mid W M} (h : front1 k s i = some m) (hr : m.icReq.isSome = true) :
    i.icReady = true ∧ gRefetch s i = false := by
  have hm : ∃ (x : Front.Rd W32 × Front.Req W32 × Option W32), qRead k.fetchCap i.reset (gRefetch s i) (fetchRead s i) s.fetch = some x ∧
      m.icReq = (match x.2.2 with
        | some a => some a
        | none => if fetchByp k s i none then some (Front.predBase s i) else none) := by
    unfold front1 at h
    simp only [bind, Option.bind_eq_some_iff] at h
    obtain ⟨x, h1, y, _, z, _, u, _, h5⟩ := h
    refine ⟨x, h1, ?_⟩
    split at h5
    all_goals
      simp only [Option.bind_eq_some_iff, pure, Option.some.injEq] at h5
      obtain ⟨v, _, h5⟩ := h5
      rw [← h5]
      dsimp only
      cases x.2.2 <;> rfl
  obtain ⟨⟨fr, fq, fo⟩, h1, h6⟩ := hm
  rw [h6] at hr
  cases fo with
  | some a =>
    cases hf : fetchRead s i with
    | false =>
      rw [hf] at h1
      have := qRead_none h1
      cases this
    | true =>
      unfold fetchRead at hf
      simp only [Bool.and_eq_true, Bool.not_eq_true'] at hf
      exact ⟨hf.1.1.1, hf.2⟩
  | none =>
    simp only at hr
    split at hr
    · rename_i hb
      unfold fetchByp at hb
      simp only [Bool.and_eq_true, Bool.not_eq_true'] at hb
      exact ⟨hb.1.2, hb.2⟩
    · cases hr

/-- The checker finds no redirect during a redirect. -/
theorem inval_live {k : Cfg} {s s' : St W M} {i : Inp W M} {m : Front.Mid W M} {resp : Option (Resp W)} {o : Obs W M}
    (h : front2 k s i m resp = some (s', o)) (hi : o.inval = true) : gRefetch s i = false := by
  rw [← Bool.not_eq_true]
  intro hg
  have hp : Front.predByp k s i resp = false := by simp [Front.predByp, hg]
  have hr : Front.instRead s i = false := by simp [Front.instRead, hg]
  unfold front2 at h
  simp only [hp, hr, Bool.or_self, Bool.false_eq_true, if_false, bind, Option.bind_eq_some_iff] at h
  obtain ⟨⟨pr, pq, po⟩, _, ⟨ir, iq⟩, _, ⟨pr', pq'⟩, _, ⟨br, bq, byo, fl⟩, h4, _, _, _, _, _, _, _, _, h9⟩ := h
  cases h9
  cases h4
  cases hi

/-- A right answer. -/
def Right (w : World) (r : Resp W) : Prop := Lanes w r.pc r.insts r.pf r.valid

variable [NeZero W] [DecidableEq M]

theorem okIn_valid {k : Cfg} {w : World} {s : Both W M} {i : In W M} {m : Front.Mid W M} {inval : Bool} (h : OkIn w s i)
    (h1 : front1 k s.f (i.front s) = some m) (h2 : inval = true → gRefetch s.f (i.front s) = false) :
    Valid w s.ic (i.cache s m.icReq inval) := by
  have hf : gRefetch s.f (i.front s) = false → i.fenceI = false := by
    intro hg
    rw [← Bool.not_eq_true]
    intro hf
    have : (i.front s).refetch = true := h.fence hf
    rw [gRefetch, this] at hg
    cases hg
  refine ⟨h.mmu, h.resp, h.probe, h.acc, fun hr => ?_, fun hi => ⟨h2 hi, hf (h2 hi)⟩⟩
  obtain ⟨a, b⟩ := icReq_ready h1 hr
  refine ⟨?_, b, hf b⟩
  have : peek s.ic.c i.hold = true := a
  unfold peek at this ⊢
  rw [Bool.and_eq_true] at this
  rw [this.2]
  rfl

/-- The first call, and so what the front end gets, does not depend on whether there is a second one. -/
theorem resp_inval (W : Nat) (s : Both W M) (i : In W M) (req : Option W32) (b : Bool) :
    icResp W s.ic (i.cache s req b) = icResp W s.ic (i.cache s req false) := by
  unfold icResp
  rw [cycle_out, cycle_out]
  rfl

theorem frun_run {k : Cfg} {tr : List (Ev W M)} {w : World} {s : Both W M} (h : FRun k tr w s) :
    ∃ q : Option W32, Run k tr s.f q.toList ∧ Reach w s.ic q ∧ ∀ r ∈ answers tr, Right w r := by
  induction h with
  | init w => exact ⟨none, .init, .init w, fun r hr => by cases hr⟩
  | @step tr w w' s s' resp o i _ hok hw hc ih =>
    obtain ⟨q, hrun, hreach, hright⟩ := ih
    unfold Both.cycle at hc
    simp only [bind, Option.bind_eq_some_iff, pure, Option.some.injEq, Prod.mk.injEq] at hc
    obtain ⟨m, h1, ⟨f', o'⟩, h2, h3, h4, h5⟩ := hc
    dsimp only at h3 h5
    subst h5
    rw [h4] at h2
    change icResp W s.ic _ = resp at h4
    have hv := okIn_valid (inval := o'.inval) hok h1 (inval_live h2)
    have hfen : ((i.cache s m.icReq o'.inval).refetch || (i.cache s m.icReq o'.inval).fenceI) = gRefetch s.f (i.front s) := by
      show (gRefetch s.f (i.front s) || i.fenceI) = _
      cases hg : i.fenceI with
      | false => simp
      | true =>
        have : (i.front s).refetch = true := hok.fence hg
        simp [gRefetch, this]
    have ha := C76_answers W hreach hv
    rw [hfen, resp_inval, h4] at ha
    have hnext : w.Next w' (i.cache s m.icReq o'.inval) := by
      refine ⟨fun hk => hw.xlat ?_, hw.data⟩
      unfold Cyc.kill at hk
      rw [hfen, Bool.or_eq_false_iff, gRefetch, Bool.or_eq_false_iff] at hk
      exact hk.1.1
    obtain ⟨q', hr', hq'⟩ := C76_once W hreach hv hnext
    rw [resp_inval, h4, Cyc.kill, hfen] at hq'
    refine ⟨q', ?_, ?_, ?_⟩
    · rw [hq', ← h3]
      exact .step (i.front s) m resp hrun h1 ha h2
    · rw [← h3]; exact hr'
    · intro r hr
      unfold answers at hr
      cases hrf : i.refetch with
      | true => simp [hrf] at hr
      | false =>
        have hfe : i.fenceI = false := by
          rw [← Bool.not_eq_true]
          intro hh
          rw [hok.fence hh] at hrf
          cases hrf
        have hww : w' = w := by
          have h6 := hw.xlat hrf
          obtain ⟨h7, h8, h9⟩ := hw.data hfe
          cases w; cases w'
          simp only at h6 h7 h8 h9
          subst h6 h7 h8 h9
          rfl
        rw [hww]
        simp only [hrf, Bool.false_eq_true, if_false, Bool.or_self, Option.isSome_none, List.mem_append,
          Option.mem_toList] at hr
        rcases hr with hr | hr
        · exact C77_words W hreach hv (by rw [resp_inval, h4]; exact hr)
        · exact hright r hr

/-! ### C80 -/

/-- C80: the front end with its instruction cache never aborts. -/
theorem C80_no_abort {k : Cfg} (hcap : k.ptabCap - 1 ≤ k.instCap) {tr : List (Ev W M)} {w : World} {s : Both W M}
    (h : FRun k tr w s) (i : In W M) (hi : OkIn w s i) : (s.cycle k i).isSome = true := by
  obtain ⟨q, hrun, hreach, _⟩ := frun_run h
  obtain ⟨m, h1, h2⟩ := C73_no_abort hcap hrun (i.front s)
  have hv := okIn_valid (inval := false) hi h1 (by simp)
  have ha := C76_answers W hreach hv
  have hfen : ((i.cache s m.icReq false).refetch || (i.cache s m.icReq false).fenceI) = gRefetch s.f (i.front s) := by
    show (gRefetch s.f (i.front s) || i.fenceI) = _
    cases hg : i.fenceI with
    | false => simp
    | true =>
      have : (i.front s).refetch = true := hi.fence hg
      simp [gRefetch, this]
  rw [hfen] at ha
  obtain ⟨⟨f', o⟩, h3⟩ := Option.isSome_iff_exists.mp (h2 _ ha)
  unfold Both.cycle
  rw [h1]
  change (Option.bind (front2 k s.f (i.front s) m (icResp W s.ic (i.cache s m.icReq false))) _).isSome = true
  rw [h3]
  rfl

/-- C80: the groups handed to the back end form one path - each starts at the address of the last redirect, or where
the group handed over after it says -, and the words of a group are the ones the surroundings hold at the translated
address: translations as the MMU gives them since the last redirect by the back end, contents as the data cache and the
memory have reported them since the last `fence.i`. -/
theorem C80_fetch {k : Cfg} (hcap : k.ptabCap - 1 ≤ k.instCap) {tr : List (Ev W M)} {e : Ev W M} {w : World}
    {s : Both W M} (h : FRun k (e :: tr) w s) (g : Front.Out W M) (hg : e.out = some g) :
    e.redirect = none ∧ (∀ j : Fin W, g.pc j = want k.resetPc tr + BitVec.ofNat 32 (j.val * 4)) ∧
      Lanes w (want k.resetPc tr) g.insts g.pf g.valid := by
  obtain ⟨q, hrun, _, hright⟩ := frun_run h
  obtain ⟨_, h2, h3⟩ := C72_path hcap hrun g hg
  obtain ⟨r, h4, h5, h6, h7, h8⟩ := C74_words hcap hrun g hg
  refine ⟨h2, h3, ?_⟩
  have h0 : g.pc 0 = want k.resetPc tr := by rw [h3 0]; simp
  have := hright r h4
  unfold Right at this
  rwa [h5, h0, ← h6, ← h7, ← h8] at this

/-! ### A run -/

namespace FetchRun

/-- Groups of two words, lines of 64 bytes, queues of four. -/
def k : Cfg := ⟨4, 4, 4, 4, true, true, 64#32, 0x80000080#32⟩

/-- In memory, `jal x0, 64` at `0x80005084`, `nop` elsewhere. -/
def line (a : W32) : Line := fun k => if wordAt a k = 0x80005084#32 then 0x0400006F#32 else 0x00000013#32

/-- Page 1 faults; the data cache has nothing. -/
def world : World where
  xlat v x := x = ICacheRun.tr v
  hit _ _ := False
  miss _ := True
  mem a l := l = line a

/-- The predictor always goes on behind the group; the surroundings answer at once. -/
def inp (s : Both 2 Unit) (redirect : Option W32) : In 2 Unit :=
  { refetch := redirect.isSome
    refetchAddr := redirect.getD 0#32
    fenceI := false
    hold := false
    readEn := true
    bpNext := s.f.pc + 8#32
    bpDir := fun _ => false
    bpInfo := ()
    mmu := fun v => some (ICacheRun.tr v)
    mReady := true
    acc := s.ic.e.offer.isSome
    mResp := (List.finRange 16).findSome? fun t => (s.ic.e.owed t).map fun x => (t, line x.1)
    probe := none }

theorem inp_ok (s : Both 2 Unit) (r : Option W32) : OkIn world s (inp s r) := by
  refine ⟨fun v x h => ?_, fun t l h => ?_, fun a _ => trivial, fun h => h, fun h => by cases h⟩
  · simp only [inp, Option.some.injEq] at h
    exact h.symm
  · left
    simp only [inp] at h
    obtain ⟨t', _, h⟩ := List.exists_of_findSome?_eq_some h
    rw [Option.map_eq_some_iff] at h
    obtain ⟨⟨a, f⟩, h1, h2⟩ := h
    cases h2
    exact ⟨a, f, h1, fun _ => rfl⟩

def go : List (Option W32) → List (Ev 2 Unit) × Both 2 Unit → Option (List (Ev 2 Unit) × Both 2 Unit)
  | [], x => some x
  | r :: l, (tr, s) => (s.cycle k (inp s r)).bind fun y =>
    go l (⟨false, if (inp s r).refetch then some (inp s r).refetchAddr else none, y.2.1, y.2.2.out⟩ :: tr, y.1)

theorem go_run {l : List (Option W32)} {x y : List (Ev 2 Unit) × Both 2 Unit} (h : FRun k x.1 world x.2)
    (e : go l x = some y) : FRun k y.1 world y.2 := by
  induction l generalizing x with
  | nil => simp only [go, Option.some.injEq] at e; subst e; exact h
  | cons r l ih =>
    rw [go, Option.bind_eq_some_iff] at e
    obtain ⟨⟨s', resp, o⟩, e1, e2⟩ := e
    exact ih (.step _ h (inp_ok _ _) ⟨fun _ => rfl, fun _ => ⟨rfl, rfl, rfl⟩⟩ e1) e2

def outs (tr : List (Ev 2 Unit)) : List (W32 × W32 × W32 × Bool) :=
  (tr.reverse.filterMap (·.out)).map fun g => (g.pc 0, g.insts 0, g.insts 1, g.pf 0)

def script : List (Option W32) := List.replicate 13 none ++ [some 0x00001040#32] ++ List.replicate 2 none

end FetchRun

open FetchRun in
/-- A run: two lines read from memory, the second because of a jump the predictor did not know; then a redirect to a
page that faults. -/
example : ∃ y, go script ([], ⟨St.init k, {}⟩) = some y ∧ FRun k y.1 world y.2 ∧ k.ptabCap - 1 ≤ k.instCap ∧
    outs y.1 = [(0x80000080#32, 0x00000013#32, 0x0400006F#32, false), (0x800000C4#32, 0x00000013#32, 0x00000013#32, false),
      (0x00001040#32, 0x00000013#32, 0x00000013#32, true)] := by
  have ho : (go script ([], ⟨St.init k, {}⟩)).map (fun y => outs y.1) =
      some [(0x80000080#32, 0x00000013#32, 0x0400006F#32, false), (0x800000C4#32, 0x00000013#32, 0x00000013#32, false),
        (0x00001040#32, 0x00000013#32, 0x00000013#32, true)] := by decide +kernel
  rw [Option.map_eq_some_iff] at ho
  obtain ⟨y, hy, ho⟩ := ho
  exact ⟨y, hy, go_run (.init _) hy, by decide, ho⟩

end Verif.Props

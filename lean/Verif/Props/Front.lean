import Verif.Proofs.Front
import Verif.Proofs.Predecode

/-!
C70: predecoding agrees with the reference executor.
C71: directions and next address of a delivered fetch group agree with its instructions.
C72: the delivered groups form one path.
C73: the front end never aborts and loses no answer.
C74: the delivered words are the instruction cache's.
C75: the front end does not stall by itself.
-/
namespace Verif.Props
open Verif.Front
open Verif.FetchStream

/-! ### C70 -/

/-- C70: the kind found by predecoding is that of the opcode. -/
theorem C70_kind (w pc : W32) :
    ((predecode w pc).1 = .jal ↔ IsJal w) ∧ ((predecode w pc).1 = .direct ↔ IsBranch w) ∧
      ((predecode w pc).1 = .jalr ↔ IsJalr w) := by
  rw [predecode_eq]
  simp only [IsJal, IsBranch, IsJalr]
  generalize opcode w = c
  by_cases h1 : c = 0b1101111#7
  · subst h1; simp
  · by_cases h2 : c = 0b1100011#7
    · subst h2; simp
    · by_cases h3 : c = 0b1100111#7
      · subst h3; simp
      · simp [h1, h2, h3]

/-- C70: where the reference executor goes after an instruction is where predecoding says. -/
theorem C70_next (w : W32) (s s' : Ref.IState) (h : Ref.refIM w s = some s') :
    ((predecode w s.pc).1 = .jal → s'.pc = (predecode w s.pc).2) ∧
      ((predecode w s.pc).1 = .direct → s'.pc = (predecode w s.pc).2 ∨ s'.pc = s.pc + 4#32) ∧
      ((predecode w s.pc).1 = .non → s'.pc = s.pc + 4#32) := by
  have hop : w.extractLsb' 0 7 = opcode w := rfl
  have hj : ∀ pc : W32, (pc.setWidth 64 + Decode.immJ w).setWidth 32 = jalTarget pc w := by
    intro pc; rw [trunc_add, ImmLemmas.immJ_eq]; rfl
  have hb : ∀ pc : W32, (pc.setWidth 64 + Decode.immB w).setWidth 32 = branchTarget pc w := by
    intro pc; rw [trunc_add, ImmLemmas.immB_eq]; rfl
  rw [predecode_eq]
  unfold Ref.refIM at h
  simp only [hop, hj, hb] at h
  generalize opcode w = c at h ⊢
  split at h
  · cases h; simp
  · cases h; simp
  · cases h; simp
  · cases h; simp
  · cases h
    refine ⟨by simp, fun _ => ?_, by simp⟩
    dsimp only
    split
    · exact .inl (by simp)
    · exact .inr rfl
  · simp at h
  · simp at h
  · simp only [Option.bind_eq_bind, Option.bind_eq_some_iff] at h
    obtain ⟨v, _, h⟩ := h
    cases h; simp
  · simp only [Option.bind_eq_bind] at h
    split at h
    · cases h; simp
    · rw [Option.bind_eq_some_iff] at h
      obtain ⟨v, _, h⟩ := h
      cases h; simp
  · cases h
    simp_all

/-- `beq x0, x0, -8` at `0x80000010`: a branch to `0x80000008`, and the reference executor takes it. -/
example : predecode 0xFE000CE3#32 0x80000010#32 = (.direct, 0x80000008#32) ∧
    (Ref.refIM 0xFE000CE3#32 ⟨fun _ => 0#32, 0x80000010#32⟩).map (·.pc) = some 0x80000008#32 := by decide +kernel

/-- `jal x1, -2048` at `0x1000`. -/
example : predecode 0x801FF0EF#32 0x1000#32 = (.jal, 0x800#32) ∧
    (Ref.refIM 0x801FF0EF#32 ⟨fun _ => 0#32, 0x1000#32⟩).map (·.pc) = some 0x800#32 := by decide +kernel

section
variable {W : Nat} [NeZero W] {M : Type}

/-- What holds of every step of an execution. -/
private theorem run_step {k : Cfg} (hcap : k.ptabCap - 1 ≤ k.instCap) {tr : List (Ev W M)} {s s' : St W M}
    {q : List W32} {o : Obs W M} (h : Run k tr s q) (i : Inp W M) (m : Mid W M) (resp : Option (Resp W))
    (h1 : front1 k s i = some m) (h2 : AnsOk (i.reset || gRefetch s i) q m.icReq resp)
    (h3 : front2 k s i m resp = some (s', o)) :
    (o.out.isSome = true → i.reset = false ∧ i.refetch = false) ∧ OutOk k tr resp o.out := by
  obtain ⟨m', e1, e2⟩ := step_ok hcap (inv_run hcap h) i
  rw [h1] at e1
  obtain rfl := Option.some.inj e1
  obtain ⟨s'', o', f1, _, f3, f4⟩ := e2 resp h2
  rw [h3] at f1
  obtain ⟨rfl, rfl⟩ := Prod.mk.inj (Option.some.inj f1)
  exact ⟨f3, f4⟩

/-- Of a nonempty trace: the newest event was made by a step. -/
private theorem run_out {k : Cfg} (hcap : k.ptabCap - 1 ≤ k.instCap) {tr : List (Ev W M)} {e : Ev W M} {s : St W M}
    {q : List W32} (h : Run k (e :: tr) s q) {g : Out W M} (hg : e.out = some g) :
    e.reset = false ∧ e.redirect = none ∧ g.pc 0 = want k.resetPc tr ∧ Made k (e.resp.toList ++ answers tr) g := by
  cases h with
  | step i m resp h0 h1 h2 h3 =>
    obtain ⟨a, b⟩ := run_step hcap h0 i m resp h1 h2 h3
    obtain ⟨c, d⟩ := a (by rw [Option.isSome_iff_exists]; exact ⟨g, hg⟩)
    exact ⟨c, by simp [d], (b g hg).1, (b g hg).2⟩

/-! ### C71 -/

/-- C71: in every group handed to the back end the directions and the next address agree with the instructions. -/
theorem C71_group {k : Cfg} (hcap : k.ptabCap - 1 ≤ k.instCap) (l : Nat) (hline : k.line = BitVec.ofNat 32 (2 ^ l))
    (hl : l < 32) (hW : W * 4 ≤ 2 ^ l) {tr : List (Ev W M)} {e : Ev W M} {s : St W M} {q : List W32}
    (h : Run k (e :: tr) s q) (g : Out W M) (hg : e.out = some g) : GroupOk (2 ^ l) g := by
  obtain ⟨_, _, _, r, _, p, hp, rfl⟩ := run_out hcap h hg
  exact groupOk k l hline hl hW r p hp

/-! ### C72 -/

/-- C72: the first group after a reset or a redirect by the back end starts at its address, every later one where the
one before says; the addresses within a group are consecutive; nothing is handed over in the cycle of a redirect. -/
theorem C72_path {k : Cfg} (hcap : k.ptabCap - 1 ≤ k.instCap) {tr : List (Ev W M)} {e : Ev W M} {s : St W M}
    {q : List W32} (h : Run k (e :: tr) s q) (g : Out W M) (hg : e.out = some g) :
    e.reset = false ∧ e.redirect = none ∧
      ∀ j : Fin W, g.pc j = want k.resetPc tr + BitVec.ofNat 32 (j.val * 4) := by
  obtain ⟨a, b, c, r, _, p, hp, rfl⟩ := run_out hcap h hg
  refine ⟨a, b, fun j => ?_⟩
  have h0 : (mkOut (mkGroup k r) p).pc 0 = r.pc := by
    show p.base 0 = r.pc
    rw [hp]; simp
  rw [← c, h0]
  exact hp j

/-! ### C73 -/

/-- C73: whatever the back end, the predictors and the instruction cache do, no cycle aborts. -/
theorem C73_no_abort {k : Cfg} (hcap : k.ptabCap - 1 ≤ k.instCap) {tr : List (Ev W M)} {s : St W M} {q : List W32}
    (h : Run k tr s q) (i : Inp W M) :
    ∃ m, front1 k s i = some m ∧
      ∀ resp, AnsOk (i.reset || gRefetch s i) q m.icReq resp → (front2 k s i m resp).isSome = true := by
  obtain ⟨m, e1, e2⟩ := step_ok hcap (inv_run hcap h) i
  refine ⟨m, e1, fun resp ha => ?_⟩
  obtain ⟨s', o, f, _⟩ := e2 resp ha
  rw [f]; rfl

/-- C73: no group is lost or made up: outside of redirects, the groups handed over and those left inside are those
that were inside and those that came from the instruction cache. -/
theorem C73_kept {k : Cfg} (hcap : k.ptabCap - 1 ≤ k.instCap) {tr : List (Ev W M)} {s : St W M} {q : List W32}
    (h : Run k tr s q) (i : Inp W M) (hr : i.reset = false) (hg : gRefetch s i = false) (m : Mid W M)
    (h1 : front1 k s i = some m) (resp : Option (Resp W)) (ha : AnsOk false q m.icReq resp) (s' : St W M)
    (o : Obs W M) (h2 : front2 k s i m resp = some (s', o)) :
    o.out.toList.length + (s'.inst.length + s'.f2b.length) =
      (s.inst.length + s.f2b.length) + resp.toList.length := by
  obtain ⟨m', f', e1, _, e2⟩ := live_ok hcap (inv_run hcap h) i hr hg
  rw [h1] at e1
  obtain rfl := Option.some.inj e1
  obtain ⟨_, _, _, s'', o', f1, _, hL⟩ := e2 resp ha
  rw [h2] at f1
  obtain ⟨rfl, rfl⟩ := Prod.mk.inj (Option.some.inj f1)
  have hn : (news k resp).length = resp.toList.length := by cases resp <;> rfl
  have hq : ∀ F : List (Out W M), (if i.readEn = true then F.head? else none).toList.length +
      (if i.readEn = true then F.tail else F).length = F.length := by
    intro F
    cases i.readEn <;> cases F <;> simp [Nat.add_comm]
  rcases hL.act with ⟨_, a1, _, _, a4, a5⟩ | ⟨g, p, P, _, b1, _, _, _, b5, b6⟩
  · have := hq s.f2b
    rw [a1, a4, a5, List.length_append, hn]
    omega
  · have := hq (s.f2b ++ [mkOut g p])
    rw [← b5, ← b6, List.length_append] at this
    have hl := congrArg List.length b1
    rw [List.length_append, hn] at hl
    simp only [List.length_cons, List.length_nil] at hl this
    omega

/-! ### C74 -/

/-- C74: the words, the page fault marks and the valid marks of a delivered group are those of an answer of the
instruction cache for its address, given since the last reset or redirect by the back end. -/
theorem C74_words {k : Cfg} (hcap : k.ptabCap - 1 ≤ k.instCap) {tr : List (Ev W M)} {e : Ev W M} {s : St W M}
    {q : List W32} (h : Run k (e :: tr) s q) (g : Out W M) (hg : e.out = some g) :
    ∃ r ∈ answers (e :: tr), r.pc = g.pc 0 ∧ g.insts = r.insts ∧ g.pf = r.pf ∧ g.valid = r.valid := by
  obtain ⟨a, b, c, r, hr, p, hp, rfl⟩ := run_out hcap h hg
  refine ⟨r, ?_, ?_, rfl, rfl, rfl⟩
  · simpa [answers, a, b] using hr
  · show r.pc = p.base 0
    rw [hp]; simp

/-! ### C75 -/

/-- How far the next group is. -/
private def rank (s : St W M) : Nat :=
  if s.preRefetch.isSome then 3
  else if s.f2b = [] ∧ s.inst = [] then (if s.ptab = [] then 2 else 1) else 0

private theorem rank_step {k : Cfg} (hcap : k.ptabCap - 1 ≤ k.instCap) (hf : 2 ≤ k.fetchCap) (hp : 2 ≤ k.ptabCap)
    (hb : 1 ≤ k.f2bCap) {tr : List (Ev W M)} {s s' : St W M} {q : List W32} {o : Obs W M} (h : Inv k tr s q)
    (i : Inp W M) (m : Mid W M) (resp : Option (Resp W)) (h1 : front1 k s i = some m)
    (h2 : AnsOk (i.reset || gRefetch s i) q m.icReq resp) (h3 : front2 k s i m resp = some (s', o))
    (hr : i.reset = false) (hrf : i.refetch = false) (he : i.readEn = true) (ho : o.out = none) :
    rank s' + (if icWaits i q m.icReq resp then 0 else 1) ≤ rank s := by
  cases hg : gRefetch s i with
  | true =>
    have hpre : s.preRefetch.isSome = true := by simpa [gRefetch, hrf] using hg
    have hk : (i.reset || gRefetch s i) = true := by simp [hg]
    obtain ⟨m', e1, e2, e3⟩ := cycle_kill (k := k) h.lat hk
    rw [h1] at e1
    obtain rfl := Option.some.inj e1
    have hn : resp = none := by
      cases resp with
      | none => rfl
      | some r => have := (h2 r rfl).1; rw [hk] at this; cases this
    obtain ⟨s'', o', f1, _, _, _, f4, f5, _⟩ := e3 resp hn
    rw [h3] at f1
    obtain ⟨rfl, rfl⟩ := Prod.mk.inj (Option.some.inj f1)
    have h3' : rank s = 3 := by simp [rank, hpre]
    have h2' : rank s' ≤ 2 := by
      simp only [rank, f5]
      repeat' split
      all_goals simp_all
    split <;> omega
  | false =>
    have hpre : s.preRefetch = none := by
      revert hg; simp only [gRefetch, hrf]; cases s.preRefetch <;> simp
    rw [hr, hg] at h2
    obtain ⟨m', f', e1, e1', e2⟩ := live_ok hcap h i hr hg
    rw [h1] at e1
    obtain rfl := Option.some.inj e1
    obtain ⟨hE, _, _, s'', o', f1, _, hL⟩ := e2 resp h2
    rw [h3] at f1
    obtain ⟨rfl, rfl⟩ := Prod.mk.inj (Option.some.inj f1)
    obtain ⟨_, _, _, c3⟩ := h.path
    obtain ⟨_, c4, _⟩ := c3 hpre
    rcases hL.act with ⟨a0, a1, a2, a3, a4, a5⟩ | ⟨g, p, P, _, _, _, _, _, b5, _⟩
    · rw [he] at a4
      simp only [if_true] at a4
      have hfe : s.f2b = [] := by
        rw [ho] at a4
        cases hq : s.f2b with
        | nil => rfl
        | cons a t => rw [hq] at a4; simp at a4
      have hnf : s.f2bFull = false := by
        rw [h.lat.f2bFull, hfe]; simp; omega
      have hin : s.inst = [] := by
        cases hq : s.inst with
        | nil => rfl
        | cons a t =>
          have hpt : s.ptab ≠ [] := by
            intro hn
            rw [hn, hq] at c4; simp at c4
          have : instRead s i = true := by
            simp only [instRead, hnf, hr, hg, h.lat.instEmpty, h.lat.ptabEmpty]
            have : s.ptab.length ≠ 0 := by simpa using hpt
            simp [hq, this]
          simp [pops, this] at a0
      have hrank' : rank s' = if s'.inst = [] then (if s'.ptab = [] then 2 else 1) else 0 := by
        have : s'.f2b = [] := by rw [a5, he, hfe]; rfl
        simp [rank, a3, this]
      by_cases hpt : s.ptab = []
      · have hrk : rank s = 2 := by simp [rank, hpre, hfe, hin, hpt]
        have hw : writes s = true := by
          rw [hpt, hin] at c4
          have hfl : s.fetch = [] := by
            have := c4.symm
            simp at this
            exact this.2
          simp only [writes, h.lat.fetchFull, h.lat.ptabFull, hfl, hpt, List.length_nil]
          simp; omega
        have hne : s'.ptab ≠ [] := by rw [a2, hw]; simp
        have : rank s' ≤ 1 := by
          rw [hrank', if_neg hne]; split <;> omega
        rw [hrk]; split <;> omega
      · have hrk : rank s = 1 := by simp [rank, hpre, hfe, hin, hpt]
        have hne : s'.ptab ≠ [] := by rw [a2]; simp [hpt]
        cases hresp : resp with
        | some r =>
          have hi : s'.inst ≠ [] := by rw [a1, hresp]; simp [news]
          rw [hrank', if_neg hi, hrk]; split <;> omega
        | none =>
          have hwait : icWaits i q m.icReq (none : Option (Resp W)) := by
            refine ⟨rfl, ?_⟩
            cases hrd : i.icReady with
            | false => exact .inl rfl
            | true =>
              right
              intro hq0
              have hE' := hE
              rw [hresp, hin] at hE'
              have hq1 : q = [] := by
                cases hqq : q with
                | nil => rfl
                | cons a t => rw [hqq] at hq0; simp at hq0
              -- the address queue is not empty, so a request is made
              have hfn : s.fetch ≠ [] := by
                intro hf0
                rw [hf0, hq1, hin] at c4
                simp at c4
                exact hpt c4
              have hfr : fetchRead s i = true := by
                simp only [fetchRead, hrd, hr, hg, h.lat.fetchEmpty]
                have : s.fetch.length ≠ 0 := by simpa using hfn
                simp [this]
              obtain ⟨_, _, hfq, _, _⟩ := qRead_live k.fetchCap (fetchRead s i) s.fetch
              have hreq : m.icReq ≠ none := by
                intro hm0
                exact front1_req hr hg hfr hfn h1 hm0
              rw [hq1] at hq0
              cases hmq : m.icReq with
              | none => exact hreq hmq
              | some a => rw [hmq] at hq0; simp at hq0
          rw [if_pos hwait, hrank', hrk, if_neg hne]; split <;> omega
    · rw [he, ho] at b5
      simp only [if_true] at b5
      have := congrArg Option.isSome b5
      simp at this

/-- C75: in cycles without a redirect in which the back end takes groups and gets none, at most three do not wait for
the instruction cache. -/
theorem C75_no_stall {k : Cfg} (hcap : k.ptabCap - 1 ≤ k.instCap) (hf : 2 ≤ k.fetchCap) (hp : 2 ≤ k.ptabCap)
    (hb : 1 ≤ k.f2bCap) {tr : List (Ev W M)} {s s' : St W M} {q q' : List W32} {n : Nat} (h : Run k tr s q)
    (hq : Quiet k s q n s' q') : n ≤ 3 := by
  have key : n + rank s' ≤ rank s ∧ ∃ tr', Inv k tr' s' q' := by
    induction hq with
    | nil => exact ⟨by omega, tr, inv_run hcap h⟩
    | step i m resp _ h1 h2 h3 hr hrf he ho ih =>
      obtain ⟨ih1, tr', ih2⟩ := ih
      refine ⟨?_, ?_⟩
      · have := rank_step hcap hf hp hb ih2 i m resp h1 h2 h3 hr hrf he ho
        omega
      · obtain ⟨m', e1, e2⟩ := step_ok hcap ih2 i
        rw [h1] at e1
        obtain rfl := Option.some.inj e1
        obtain ⟨s'', o', f1, f2, _⟩ := e2 resp h2
        rw [h3] at f1
        obtain ⟨rfl, rfl⟩ := Prod.mk.inj (Option.some.inj f1)
        exact ⟨_, f2⟩
  have : rank s ≤ 3 := by
    simp only [rank]
    repeat' split
    all_goals omega
  omega

end

/-! ### A run -/

namespace FrontRun

/-- Groups of two words, lines of 64 bytes, queues of four. -/
def k : Cfg := ⟨4, 4, 4, 4, false, false, 64#32, 0x80000000#32⟩

/-- `jal x0, 16` at `0x80000004`, `nop` elsewhere. -/
def prog (a : W32) : W32 := if a = 0x80000004#32 then 0x0100006F#32 else 0x00000013#32

/-- An instruction cache that answers in the cycle of the request. -/
def ans (a : W32) : Resp 2 := ⟨a, fun j => prog (a + BitVec.ofNat 32 (j.val * 4)), fun _ => false, fun _ => true⟩

/-- The predictor always goes on behind the group. -/
def inp (s : St 2 Unit) (redirect : Option W32) : Inp 2 Unit :=
  ⟨false, redirect.isSome, redirect.getD 0#32, true, true, s.pc + 8#32, fun _ => false, ()⟩

def next (x : List (Ev 2 Unit) × St 2 Unit × List W32) (redirect : Option W32) :
    Option (List (Ev 2 Unit) × St 2 Unit × List W32) :=
  let i := inp x.2.1 redirect
  (front1 k x.2.1 i).bind fun m =>
    let resp := if i.reset || gRefetch x.2.1 i then none else (x.2.2 ++ m.icReq.toList).head?.map ans
    (front2 k x.2.1 i m resp).map fun so =>
      (⟨i.reset, if i.refetch then some i.refetchAddr else none, resp, so.2.out⟩ :: x.1, so.1,
        waiting (i.reset || gRefetch x.2.1 i || so.2.inval) x.2.2 m.icReq resp)

def go (l : List (Option W32)) (x : List (Ev 2 Unit) × St 2 Unit × List W32) :
    Option (List (Ev 2 Unit) × St 2 Unit × List W32) :=
  match l with
  | [] => some x
  | r :: t => (next x r).bind (go t)

theorem next_run {x y : List (Ev 2 Unit) × St 2 Unit × List W32} {r : Option W32} (h : Run k x.1 x.2.1 x.2.2)
    (e : next x r = some y) : Run k y.1 y.2.1 y.2.2 := by
  unfold next at e
  rw [Option.bind_eq_some_iff] at e
  obtain ⟨m, h1, e⟩ := e
  rw [Option.map_eq_some_iff] at e
  obtain ⟨⟨s', o⟩, h3, rfl⟩ := e
  refine Run.step (inp x.2.1 r) m _ h h1 ?_ h3
  intro a ha
  split at ha
  · simp at ha
  · rename_i hk
    rw [Option.map_eq_some_iff] at ha
    obtain ⟨b, hb, rfl⟩ := ha
    exact ⟨by simpa using hk, hb⟩

theorem go_run {l : List (Option W32)} {x y : List (Ev 2 Unit) × St 2 Unit × List W32} (h : Run k x.1 x.2.1 x.2.2)
    (e : go l x = some y) : Run k y.1 y.2.1 y.2.2 := by
  induction l generalizing x with
  | nil => simp only [go, Option.some.injEq] at e; subst e; exact h
  | cons r t ih =>
    rw [go, Option.bind_eq_some_iff] at e
    obtain ⟨z, e1, e2⟩ := e
    exact ih (next_run h e1) e2

/-- What was handed over: start, next address, directions. -/
def outs (tr : List (Ev 2 Unit)) : List (W32 × W32 × Bool × Bool) :=
  (tr.reverse.filterMap (·.out)).map fun g => (g.pc 0, g.next, g.dir 0, g.dir 1)

/-- Seven cycles, a redirect to `0x80001000`, five more. -/
def script : List (Option W32) := [none, none, none, none, none, none, none, some 0x8000103C#32, none, none, none, none]

end FrontRun

open FrontRun in
/-- A run with a wrong prediction found by predecoding, and a redirect to the last word of a line. -/
example : ∃ y, go script ([], St.init k, []) = some y ∧ Run k y.1 y.2.1 y.2.2 ∧
    k.ptabCap - 1 ≤ k.instCap ∧ k.line = BitVec.ofNat 32 (2 ^ 6) ∧ 2 * 4 ≤ 2 ^ 6 ∧
    outs y.1 = [(0x80000000#32, 0x80000014#32, false, true), (0x80000014#32, 0x8000001C#32, false, false),
      (0x8000103C#32, 0x80001040#32, false, false)] := by
  have hs : (go script ([], St.init k, [])).isSome = true := by decide +kernel
  have ho : (go script ([], St.init k, [])).map (fun y => outs y.1) =
      some [(0x80000000#32, 0x80000014#32, false, true), (0x80000014#32, 0x8000001C#32, false, false),
        (0x8000103C#32, 0x80001040#32, false, false)] := by decide +kernel
  obtain ⟨y, hy⟩ := Option.isSome_iff_exists.mp hs
  refine ⟨y, hy, go_run .init hy, by decide, by decide, by decide, ?_⟩
  rw [hy] at ho
  simpa using ho

namespace FrontRun

/-- A cycle in which nothing is handed over, with the number of cycles not waiting for the instruction cache. -/
def qnext (x : Nat × St 2 Unit × List W32) : Option (Nat × St 2 Unit × List W32) :=
  let i := inp x.2.1 none
  (front1 k x.2.1 i).bind fun m =>
    let resp := if i.reset || gRefetch x.2.1 i then none else (x.2.2 ++ m.icReq.toList).head?.map ans
    (front2 k x.2.1 i m resp).bind fun so =>
      if so.2.out.isNone then
        some (x.1 + (if icWaits i x.2.2 m.icReq resp then 0 else 1), so.1,
          waiting (i.reset || gRefetch x.2.1 i || so.2.inval) x.2.2 m.icReq resp)
      else none

theorem qnext_quiet {s : St 2 Unit} {q : List W32} {x y : Nat × St 2 Unit × List W32}
    (h : Quiet k s q x.1 x.2.1 x.2.2) (e : qnext x = some y) : Quiet k s q y.1 y.2.1 y.2.2 := by
  unfold qnext at e
  rw [Option.bind_eq_some_iff] at e
  obtain ⟨m, h1, e⟩ := e
  rw [Option.bind_eq_some_iff] at e
  obtain ⟨⟨s', o⟩, h3, e⟩ := e
  split at e
  · rename_i ho
    obtain rfl := Option.some.inj e
    refine Quiet.step (inp x.2.1 none) m _ h h1 ?_ h3 rfl rfl rfl (by simpa using ho)
    intro a ha
    split at ha
    · simp at ha
    · rename_i hk
      rw [Option.map_eq_some_iff] at ha
      obtain ⟨b, hb, rfl⟩ := ha
      exact ⟨by simpa using hk, hb⟩
  · simp at e

end FrontRun

open FrontRun in
/-- After power-on two cycles pass before the first group, though the instruction cache answers at once. -/
example : ∃ (s' : St 2 Unit) (q' : List W32), Quiet k (St.init k) [] 2 s' q' := by
  have h : ((qnext (0, St.init k, [])).bind qnext).map (·.1) = some 2 := by decide +kernel
  rw [Option.map_eq_some_iff] at h
  obtain ⟨⟨n, s', q'⟩, h, rfl⟩ := h
  rw [Option.bind_eq_some_iff] at h
  obtain ⟨x, h1, h2⟩ := h
  exact ⟨s', q', qnext_quiet (y := (_, s', q')) (qnext_quiet (x := (0, St.init k, [])) (.nil _ _) h1) h2⟩

end Verif.Props

import Verif.Spec.FetchWindow
import Verif.Proofs.Ring
/- Invariants of the instruction buffer and of the fetch-target queue. -/
namespace Verif.Proofs.PreIdu
open Verif.Ring Verif.PreIdu Verif.FetchWindow

variable {α : Type} {M N : Nat}

structure IInv (M : Nat) (b : IBuf α) (W : List α) : Prop where
  headLt : b.head < M
  len : W.length ≤ M
  count : b.count = W.length
  tail : b.tail = (b.head + W.length) % M
  win : ring M b.ent b.head W.length = W.map some

theorem iinv_clear (hM : 0 < M) : IInv M (IBuf.clear α) [] :=
  ⟨hM, by simp, rfl, by simp [IBuf.clear], rfl⟩

theorem iinv_push {b : IBuf α} {W} (h : IInv M b W) (e : α) :
    b.push M e = (if W.length < M then b.push M e else none) ∧
    (W.length < M → ∃ b', b.push M e = some b' ∧ IInv M b' (W ++ [e])) := by
  refine ⟨?_, fun hlt => ?_⟩
  · simp only [IBuf.push, h.count]; split <;> rfl
  · refine ⟨_, by rw [IBuf.push, if_pos (by rw [h.count]; exact hlt)], ?_⟩
    have hh := h.headLt
    refine ⟨hh, by simp; omega, by simp [h.count], ?_, ?_⟩
    · simp only [h.tail, List.length_append, List.length_singleton, Nat.mod_add_mod]; rfl
    · simp only [h.tail, List.length_append, List.length_singleton]
      rw [ring_snoc M _ hh, upd_same, ring_upd M b.ent _ _ _ _ hh (Nat.mod_lt _ (by omega)), h.win]
      · simp
      · intro k hk; exact mod_ne hh hk hlt

theorem iinv_popLoop : ∀ n (b : IBuf α) W c, IInv M { b with count := c } W → n ≤ W.length →
    IInv M { IBuf.popLoop M n b with count := c - n } (W.drop n)
  | 0, b, W, c, h, _ => h
  | n + 1, b, x :: W, c, h, hn => by
    have hh := h.headLt
    have hlen := h.len
    simp only [List.length_cons] at hlen hn
    have hwin := h.win
    simp only [List.length_cons, ring, List.map_cons, List.cons.injEq] at hwin
    have hc := h.count
    simp only [List.length_cons] at hc
    have ht := h.tail
    simp only [List.length_cons] at ht
    have := iinv_popLoop n { b with ent := upd b.ent b.head none, head := (b.head + 1) % M } W (c - 1)
      ⟨Nat.mod_lt _ (by simp at hh; omega), by omega, by simp; omega,
       by
        simp only [ht]
        exact (inc_add M b.head W.length).symm,
       by
        show ring M (upd b.ent b.head none) (inc M b.head) W.length = _
        simp only at hh
        rw [ring_upd M b.ent _ _ _ _ (inc_lt (by omega)) hh]
        · exact hwin.2
        · intro k hk
          rw [inc_add]
          intro h'
          have : (b.head + (k + 1)) % M = (b.head + 0) % M := by rw [h', Nat.add_zero, Nat.mod_eq_of_lt hh]
          have := mod_inj hh (by omega) (by omega) this
          omega⟩ (by omega)
    rw [IBuf.popLoop, List.drop_succ_cons, show c - (n + 1) = c - 1 - n by omega]
    exact this

theorem popLoop_frame : ∀ n (b : IBuf α), (IBuf.popLoop M n b).count = b.count
  | 0, _ => rfl
  | n + 1, b => by rw [IBuf.popLoop, popLoop_frame n]

theorem iinv_pop {b : IBuf α} {W} (h : IInv M b W) (n : Nat) : IInv M (b.pop M n) (W.drop n) := by
  have hc := h.count
  simp only [IBuf.pop]
  by_cases hn : n > b.count
  · rw [if_pos hn]
    have := iinv_popLoop b.count b W b.count h (by omega)
    rw [List.drop_eq_nil_of_le (by omega)] at this ⊢
    exact this
  · rw [if_neg hn]
    exact iinv_popLoop n b W b.count h (by omega)

theorem iinv_pushAll : ∀ (es : List α) (b : IBuf α) W, IInv M b W → W.length + es.length ≤ M →
    ∃ b', b.pushAll M es = some b' ∧ IInv M b' (W ++ es)
  | [], b, W, h, _ => ⟨b, rfl, by simpa using h⟩
  | e :: es, b, W, h, hl => by
    simp only [List.length_cons] at hl
    obtain ⟨b1, hb1, h1⟩ := (iinv_push h e).2 (by omega)
    obtain ⟨b2, hb2, h2⟩ := iinv_pushAll es b1 _ h1 (by simp; omega)
    exact ⟨b2, by rw [IBuf.pushAll, hb1]; exact hb2, by simpa using h2⟩

theorem iinv_peek {b : IBuf α} {W} (h : IInv M b W) (k : Nat) : b.peek M k = (W[k]?).map some := by
  rw [IBuf.peek, h.count]
  split
  · rename_i hk
    have := ring_getElem? M b.ent W.length b.head k h.headLt hk
    rw [h.win, List.getElem?_map] at this
    rw [← this]
  · rename_i hk
    rw [List.getElem?_eq_none (by omega)]; rfl

/-! ### Fetch-target queue -/

structure FInv (N : Nat) (q : Ftq) (W : List Block) : Prop where
  headLt : q.head < N
  len : W.length ≤ N
  count : q.count = W.length
  tail : q.tail = (q.head + W.length) % N
  win : ring N q.ent q.head W.length = W
  valid : ∀ k, k < N → q.valid ((q.head + k) % N) = decide (k < W.length)

theorem finv_init (hN : 0 < N) (e) : FInv N ⟨e, fun _ => false, 0, 0, 0⟩ [] :=
  ⟨hN, by simp, rfl, by simp, rfl, by simp⟩

theorem finv_alloc {q W} (h : FInv N q W) (b : Block) (hl : W.length < N) :
    ∃ q', q.alloc N b = some (q.tail, q') ∧ FInv N q' (W ++ [b]) := by
  refine ⟨_, by rw [Ftq.alloc, if_neg (by rw [h.count]; omega)], ?_⟩
  have hh := h.headLt
  refine ⟨hh, by simp; omega, by simp [h.count], ?_, ?_, ?_⟩
  · simp only [h.tail, List.length_append, List.length_singleton, Nat.mod_add_mod]; rfl
  · simp only [h.tail, List.length_append, List.length_singleton]
    rw [ring_snoc N _ hh, upd_same, ring_upd N q.ent _ _ _ _ hh (Nat.mod_lt _ (by omega)), h.win]
    intro k hk; exact mod_ne hh hk hl
  · intro k hk
    simp only [h.tail, List.length_append, List.length_singleton]
    by_cases he : k = W.length
    · rw [he, upd_same]; simp
    · rw [upd_ne _ _ (fun h' => he (mod_inj hh hk hl h')), h.valid k hk]
      congr 1; apply propext; omega

theorem finv_pop : ∀ n q W, FInv N q W → n ≤ W.length →
    FInv N (q.pop N n) (W.drop n) ∧ (q.pop N n).head = (q.head + n) % N ∧ (q.pop N n).ent = q.ent ∧
      (q.pop N n).tail = q.tail
  | 0, q, W, h, _ => ⟨h, by rw [Ftq.pop, Nat.add_zero, Nat.mod_eq_of_lt h.headLt], rfl, rfl⟩
  | n + 1, q, x :: W, h, hn => by
    have hh := h.headLt
    have hlen := h.len
    simp only [List.length_cons] at hlen hn
    have hwin := h.win
    simp only [List.length_cons, ring, List.cons.injEq] at hwin
    have hc := h.count
    simp only [List.length_cons] at hc
    have ht := h.tail
    simp only [List.length_cons] at ht
    rw [Ftq.pop, if_neg (by omega)]
    have := finv_pop n { q with valid := upd q.valid q.head false, head := (q.head + 1) % N, count := q.count - 1 } W
      ⟨Nat.mod_lt _ (by omega), by omega, by simp; omega,
       by simp only [ht]; exact (inc_add N q.head W.length).symm, hwin.2,
       by
        intro k hk
        show upd q.valid q.head false ((inc N q.head + k) % N) = _
        rw [inc_add]
        by_cases he : k + 1 = N
        · rw [he, Nat.add_mod_right, Nat.mod_eq_of_lt hh, upd_same]
          have : ¬ k < W.length := by omega
          simp [this]
        · have hne : (q.head + (k + 1)) % N ≠ q.head := by
            intro h'
            have : (q.head + (k + 1)) % N = (q.head + 0) % N := by rw [h', Nat.add_zero, Nat.mod_eq_of_lt hh]
            have := mod_inj hh (by omega) (by omega) this
            omega
          rw [upd_ne _ _ hne, h.valid (k + 1) (by omega)]
          simp⟩ (by omega)
    refine ⟨by rw [List.drop_succ_cons]; exact this.1, ?_, this.2.2.1, this.2.2.2⟩
    rw [this.2.1]
    exact inc_add N q.head n

theorem inval_spec (t : Nat) (ht : t < N) (v : Nat → Bool) : ∀ n, n ≤ N → ∀ k, k < N →
    Ftq.inval N t n v ((t + k) % N) = if k < n then false else v ((t + k) % N)
  | 0, _, k, _ => by rw [if_neg (by omega)]; rfl
  | n + 1, hn, k, hk => by
    rw [Ftq.inval]
    by_cases he : k = n
    · rw [he, upd_same, if_pos (by omega)]
    · rw [upd_ne _ _ (fun h' => he (mod_inj ht hk (by omega) h')), inval_spec t ht v n (by omega) k hk]
      by_cases h1 : k < n
      · rw [if_pos h1, if_pos (by omega)]
      · rw [if_neg h1, if_neg (by omega)]

theorem finv_recover {q W} (h : FInv N q W) {p : Nat} (hp : p < W.length) :
    FInv N (q.recover N (((q.head + p) % N + 1) % N)) (W.take (p + 1)) := by
  have hh := h.headLt
  have hlen := h.len
  have hN : 0 < N := by omega
  have e0 : ((q.head + p) % N + 1) % N = (q.head + (p + 1)) % N := by rw [Nat.mod_add_mod]; rfl
  have e1 : (((q.head + p) % N + 1) % N % N + N) % N = (q.head + (p + 1)) % N := by
    rw [e0, Nat.mod_mod, Nat.add_mod_right, Nat.mod_mod]
  have e2 : (q.tail + N - (q.head + (p + 1)) % N) % N = W.length - (p + 1) := by
    rw [h.tail]
    by_cases c1 : q.head + (p + 1) < N
    · rw [Nat.mod_eq_of_lt c1]
      by_cases c2 : q.head + W.length < N
      · rw [Nat.mod_eq_of_lt c2, show q.head + W.length + N - (q.head + (p + 1)) = W.length - (p + 1) + N by omega,
          Nat.add_mod_right, Nat.mod_eq_of_lt (by omega)]
      · rw [Nat.mod_eq_sub_mod (show N ≤ q.head + W.length by omega), Nat.mod_eq_of_lt (show q.head + W.length - N < N by omega),
          show q.head + W.length - N + N - (q.head + (p + 1)) = W.length - (p + 1) by omega,
          Nat.mod_eq_of_lt (by omega)]
    · rw [Nat.mod_eq_sub_mod (show N ≤ q.head + (p + 1) by omega), Nat.mod_eq_of_lt (show q.head + (p + 1) - N < N by omega),
        Nat.mod_eq_sub_mod (show N ≤ q.head + W.length by omega),
        Nat.mod_eq_of_lt (show q.head + W.length - N < N by omega),
        show q.head + W.length - N + N - (q.head + (p + 1) - N) = W.length - (p + 1) + N by omega,
        Nat.add_mod_right, Nat.mod_eq_of_lt (by omega)]
  have hlt : (q.head + (p + 1)) % N < N := Nat.mod_lt _ hN
  simp only [Ftq.recover, e1, e2]
  have hl : (W.take (p + 1)).length = p + 1 := by rw [List.length_take]; omega
  refine ⟨hh, by omega, ?_, ?_, ?_, ?_⟩
  · show q.count - (W.length - (p + 1)) = _
    rw [hl, h.count]; omega
  · rw [hl]
  · rw [hl]
    show ring N q.ent q.head (p + 1) = _
    have := h.win
    rw [show W.length = (p + 1) + (W.length - (p + 1)) by omega, ring_append N _ hh] at this
    have h2 := congrArg (List.take (p + 1)) this
    rw [List.take_append_of_le_length (by rw [ring_length]; omega), List.take_of_length_le (by rw [ring_length]; omega)] at h2
    exact h2
  · intro k hk
    rw [hl]
    -- position relative to the new tail
    by_cases hkp : k < p + 1
    · have : (q.head + k) % N = ((q.head + (p + 1)) % N + (N - (p + 1) + k)) % N := by
        rw [Nat.mod_add_mod, show q.head + (p + 1) + (N - (p + 1) + k) = q.head + k + N by omega,
          Nat.add_mod_right]
      show Ftq.inval N _ _ _ _ = _
      rw [this, inval_spec _ hlt _ _ (by omega) _ (by omega), if_neg (by omega), ← this, h.valid k hk]
      simp [hkp]; omega
    · have : (q.head + k) % N = ((q.head + (p + 1)) % N + (k - (p + 1))) % N := by
        rw [Nat.mod_add_mod]; congr 1; omega
      show Ftq.inval N _ _ _ _ = _
      rw [this, inval_spec _ hlt _ _ (by omega) _ (by omega), ← this, h.valid k hk]
      simp only [hkp, decide_false]
      split
      · rfl
      · have : ¬ k < W.length := by omega
        simp [this]

theorem finv_flush {q W} (h : FInv N q W) : FInv N q.flush [] := by
  have := h.headLt
  exact ⟨by show 0 < N; omega, by simp, rfl, by simp [Ftq.flush], rfl, by simp [Ftq.flush]⟩

/-! ### Blocks and instructions -/

/-- `Q` consists of complete groups (the first one possibly partly retired) whose blocks, at
indices `h`, `h+1`, …, are `W`. -/
def Chain (N : Nat) : Nat → List Flight → List Block → Prop
  | _, [], W => W = []
  | _, _ :: _, [] => False
  | h, f :: Q, b :: W => f.entry.ftqIdx = h ∧ f.blk = b ∧ f.entry.pc = b.slotPc f.entry.offset ∧
      (if f.last then Chain N (inc N h) Q W else Q ≠ [] ∧ Chain N h Q (b :: W))

def lasts (Q : List Flight) : Nat := Q.countP (·.last)

theorem chain_drop : ∀ (A : List Flight) {h Q W}, h < N → Chain N h (A ++ Q) W →
    lasts A ≤ W.length ∧ Chain N ((h + lasts A) % N) Q (W.drop (lasts A))
  | [], h, Q, W, hh, hc => ⟨by simp [lasts], by simpa [lasts, Nat.mod_eq_of_lt hh] using hc⟩
  | f :: A, h, Q, [], hh, hc => absurd hc (by simp [Chain])
  | f :: A, h, Q, b :: W, hh, hc => by
    obtain ⟨_, _, _, h3⟩ := hc
    by_cases hl : f.last = true
    · rw [if_pos hl] at h3
      have := chain_drop A (inc_lt (by omega)) h3
      have e : lasts (f :: A) = lasts A + 1 := by simp [lasts, hl]
      rw [e, List.drop_succ_cons, ← inc_add]
      exact ⟨by simp; omega, this.2⟩
    · rw [if_neg hl] at h3
      have := chain_drop A hh h3.2
      have e : lasts (f :: A) = lasts A := by simp [lasts, hl]
      rw [e]; exact this

theorem chain_trunc : ∀ (A : List Flight) {h f R W}, h < N → Chain N h (A ++ f :: R) W →
    lasts A < W.length ∧ f.entry.ftqIdx = (h + lasts A) % N ∧
    Chain N h (markLast (A ++ [f])) (W.take (lasts A + 1))
  | [], h, f, R, [], hh, hc => absurd hc (by simp [Chain])
  | [], h, f, R, b :: W, hh, hc => by
    obtain ⟨h1, h2, h3, _⟩ := hc
    refine ⟨by simp [lasts], by simp [lasts, h1, Nat.mod_eq_of_lt hh], ?_⟩
    simp [lasts, markLast, Chain, h1, h2, h3]
  | g :: A, h, f, R, [], hh, hc => absurd hc (by simp [Chain])
  | g :: A, h, f, R, b :: W, hh, hc => by
    obtain ⟨h1, h2, h3, h4⟩ := hc
    have hm : markLast (g :: A ++ [f]) = g :: markLast (A ++ [f]) := by
      cases A <;> rfl
    have hne : markLast (A ++ [f]) ≠ [] := by
      cases A with
      | nil => simp [markLast]
      | cons a A => cases A <;> simp [markLast]
    rw [hm]
    by_cases hl : g.last = true
    · rw [if_pos hl] at h4
      obtain ⟨i1, i2, i3⟩ := chain_trunc A (inc_lt (by omega)) h4
      have e : lasts (g :: A) = lasts A + 1 := by simp [lasts, hl]
      rw [e]
      refine ⟨by simp; omega, by rw [i2, inc_add], h1, h2, h3, ?_⟩
      rw [if_pos hl]; exact i3
    · rw [if_neg hl] at h4
      obtain ⟨i1, i2, i3⟩ := chain_trunc A hh h4.2
      have e : lasts (g :: A) = lasts A := by simp [lasts, hl]
      rw [e]
      refine ⟨i1, i2, h1, h2, h3, ?_⟩
      rw [if_neg hl]; exact ⟨hne, i3⟩

theorem chain_append : ∀ (Q : List Flight) {h W} {Q' W'}, h < N → Chain N h Q W →
    Chain N ((h + W.length) % N) Q' W' → Chain N h (Q ++ Q') (W ++ W')
  | [], h, W, Q', W', hh, h1, h2 => by
    have : W = [] := h1
    subst this
    simpa [Nat.mod_eq_of_lt hh] using h2
  | f :: Q, h, [], Q', W', hh, h1, _ => absurd h1 (by simp [Chain])
  | f :: Q, h, b :: W, Q', W', hh, h1, h2 => by
    obtain ⟨a1, a2, a3, a4⟩ := h1
    refine ⟨a1, a2, a3, ?_⟩
    by_cases hl : f.last = true
    · rw [if_pos hl] at a4 ⊢
      refine chain_append Q (inc_lt (by omega)) a4 ?_
      rw [inc_add]; exact h2
    · rw [if_neg hl] at a4 ⊢
      exact ⟨by simp [a4.1], chain_append Q hh a4.2 h2⟩

theorem entries_ne {idx b} : ∀ g k, (entries idx b k g = []) ↔ g.any Option.isSome = false
  | [], k => by simp [entries]
  | none :: g, k => by rw [entries, entries_ne g (k + 1)]; simp
  | some (w, pf) :: g, k => by simp [entries]

theorem entries_length {idx b} : ∀ g k, (entries idx b k g).length = g.countP Option.isSome
  | [], k => by simp [entries]
  | none :: g, k => by rw [entries, entries_length g (k + 1)]; simp
  | some (w, pf) :: g, k => by simp [entries, entries_length g (k + 1)]

theorem chain_entries (idx : Nat) (b : Block) : ∀ g k, g.any Option.isSome = true →
    Chain N idx ((entries idx b k g).map fun e => ⟨e, b, e.isLast⟩) [b]
  | [], k, h => by simp at h
  | none :: g, k, h => by rw [entries]; exact chain_entries idx b g (k + 1) (by simpa using h)
  | some (w, pf) :: g, k, h => by
    rw [entries, List.map_cons]
    refine ⟨rfl, rfl, rfl, ?_⟩
    cases hg : g.any Option.isSome with
    | false =>
      rw [(entries_ne g (k + 1)).2 hg]
      simp [Chain]
    | true =>
      have := chain_entries idx b g (k + 1) hg
      simp only [Bool.not_true, Bool.false_eq_true, if_false]
      refine ⟨?_, this⟩
      intro hn
      rw [List.map_eq_nil_iff, entries_ne] at hn
      rw [hn] at hg; cases hg

structure SInv (M N : Nat) (s : Sys) (W : List Block) : Prop where
  ib : IInv M s.pre.ibuf (s.wait.map (·.entry))
  fq : FInv N s.pre.ftq W
  chain : Chain N s.pre.ftq.head (s.flight ++ s.wait) W

theorem sinv_step {s : Sys} {W} (h : SInv M N s W) (i : FetchWindow.Input) (hv : Valid s i) :
    ∃ s', step M N s i = some s' ∧ ∃ W', SInv M N s' W' := by
  have hM : 0 < M := by have := h.ib.headLt; omega
  have hh := h.fq.headLt
  -- the accept phase
  have hacc : ∃ q W1 es, accept M N s.pre (i.mispred.isSome || i.sawFlush) i.group i.block = (q, es) ∧
      FInv N q W1 ∧ q.head = s.pre.ftq.head ∧
      es = (if taken M N s i then entries s.pre.ftq.tail i.block 0 i.group else []) ∧
      W1 = (if taken M N s i then W ++ [i.block] else W) ∧
      (i.mispred.isSome = true → taken M N s i = false) ∧ s.wait.length + es.length ≤ M := by
    have hw := h.ib.len
    rw [List.length_map] at hw
    have hcnt : (i.group.countP Option.isSome == 0) = !i.group.any Option.isSome := by
      rw [← entries_length (idx := 0) (b := i.block) i.group 0]
      cases ha : i.group.any Option.isSome with
      | false => rw [(entries_ne _ _).2 ha]; rfl
      | true =>
        have : entries 0 i.block 0 i.group ≠ [] := by
          intro h'; rw [entries_ne, ha] at h'; cases h'
        simpa using this
    have hmt : i.mispred.isSome = true → taken M N s i = false := by
      intro hm; simp [taken, ready, hm]
    by_cases ht : taken M N s i = true
    · have ht' := ht
      simp only [taken, Bool.and_eq_true] at ht'
      have hr := ht'.1
      simp only [ready, Bool.and_eq_true, decide_eq_true_eq, IBuf.canAccept] at hr
      obtain ⟨q, hq, hfq⟩ := finv_alloc h.fq i.block (by rw [← h.fq.count]; exact hr.1.2)
      refine ⟨q, W ++ [i.block], entries s.pre.ftq.tail i.block 0 i.group, ?_, hfq, ?_, by rw [if_pos ht], by rw [if_pos ht], hmt, ?_⟩
      · rw [accept, hcnt, ht'.1, ht'.2, hq]; simp
      · rw [Ftq.alloc, if_neg (by omega)] at hq
        simp only [Option.some.injEq, Prod.mk.injEq, true_and] at hq
        rw [← hq]
      · rw [entries_length]
        have hc := h.ib.count
        rw [List.length_map] at hc
        omega
    · refine ⟨s.pre.ftq, W, [], ?_, h.fq, rfl, by rw [if_neg ht], by rw [if_neg ht], hmt, by simpa using hw⟩
      rw [accept, hcnt]
      simp only [taken, Bool.and_eq_true, not_and, Bool.not_eq_true] at ht
      rw [if_pos]
      cases hr : ready M N s.pre (i.mispred.isSome || i.sawFlush) i.group with
      | false => rfl
      | true => rw [ht hr]; rfl
  obtain ⟨q, W1, es, hq, hf1, hqh, hes, hW1, hmt, hroom⟩ := hacc
  have hmi : ((input s i).mispred.isSome || (input s i).sawFlush) = (i.mispred.isSome || i.sawFlush) := by
    simp [input]
  have hq' : accept M N s.pre ((input s i).mispred.isSome || (input s i).sawFlush) (input s i).group (input s i).block
      = (q, es) := by rw [hmi]; exact hq
  have hfl : (input s i).flush = i.flush := rfl
  unfold FetchWindow.step PreIdu.step
  rw [hq', hfl]
  simp only
  by_cases hflush : i.flush = true
  · simp only [hflush, if_true, Option.map_some]
    exact ⟨_, rfl, [], iinv_clear hM, finv_flush hf1, rfl⟩
  · have hflush' : i.flush = false := by simpa using hflush
    simp only [hflush', Bool.false_eq_true, if_false]
    cases hm : i.mispred with
    | some p =>
      obtain ⟨hp, hret⟩ := hv.mispred p hm
      have htk := hmt (by rw [hm]; rfl)
      rw [htk] at hW1; simp only [Bool.false_eq_true, if_false] at hW1
      subst hW1
      have him : (input s i).mispred = some (s.flight[p]).entry.ftqIdx := by
        simp [input, hm, List.getElem?_eq_getElem hp]
      rw [him]
      simp only [Option.map_some]
      refine ⟨_, rfl, ?_⟩
      have hsplit : s.flight ++ s.wait = s.flight.take p ++ s.flight[p] :: (s.flight.drop (p + 1) ++ s.wait) := by
        have e := List.take_append_drop p s.flight
        rw [List.drop_eq_getElem_cons hp] at e
        conv => lhs; rw [← e]
        rw [List.append_assoc, List.cons_append]
      have hc := h.chain
      rw [hsplit] at hc
      obtain ⟨c1, c2, c3⟩ := chain_trunc (s.flight.take p) hh hc
      have htk1 : s.flight.take (p + 1) = s.flight.take p ++ [s.flight[p]] := by
        rw [List.take_add_one, List.getElem?_eq_getElem hp]; rfl
      refine ⟨W1.take (lasts (s.flight.take p) + 1), iinv_clear hM, ?_, ?_⟩
      · rw [c2, ← hqh]; exact finv_recover hf1 c1
      · show Chain N q.head (markLast (s.flight.take (p + 1)) ++ []) _
        rw [List.append_nil, hqh, htk1]; exact c3
    | none =>
      have him : (input s i).mispred = none := by simp [input, hm]
      rw [him]
      simp only
      have hib := iinv_pop h.ib i.fire
      obtain ⟨b, hb, hib2⟩ := iinv_pushAll es _ _ hib (by
        simp only [List.length_drop, List.length_map]; omega)
      have hpc : (input s i).popCount = i.fire := rfl
      rw [hpc, hb]
      simp only [Option.map_some]
      refine ⟨_, rfl, ?_⟩
      have hcm : (input s i).commits.countP id = lasts (s.flight.take i.retire) := by
        simp only [input, lasts, List.countP_map]; rfl
      rw [hcm]
      -- the chain before retirement
      have htail : q.head = s.pre.ftq.head := hqh
      have hchain : Chain N s.pre.ftq.head ((s.flight ++ s.wait) ++
          (if taken M N s i then fetched s.pre.ftq.tail i.block i.group else [])) W1 := by
        by_cases ht : taken M N s i = true
        · rw [if_pos ht] at hW1 ⊢
          rw [hW1]
          refine chain_append _ hh h.chain ?_
          rw [← h.fq.tail]
          refine chain_entries _ _ _ _ ?_
          simp only [taken, Bool.and_eq_true] at ht; exact ht.2
        · rw [if_neg ht] at hW1 ⊢
          rw [hW1, List.append_nil]; exact h.chain
      have hsplit : (s.flight ++ s.wait) ++ (if taken M N s i then fetched s.pre.ftq.tail i.block i.group else []) =
          s.flight.take i.retire ++ ((s.flight.drop i.retire ++ s.wait.take i.fire) ++
            (s.wait.drop i.fire ++ (if taken M N s i then fetched s.pre.ftq.tail i.block i.group else []))) := by
        conv => lhs; rw [← List.take_append_drop i.retire s.flight, ← List.take_append_drop i.fire s.wait]
        simp only [List.append_assoc]
      rw [hsplit] at hchain
      obtain ⟨d1, d2⟩ := chain_drop _ hh hchain
      obtain ⟨p1, p2, p3, p4⟩ := finv_pop (lasts (s.flight.take i.retire)) q W1 hf1 d1
      refine ⟨W1.drop (lasts (s.flight.take i.retire)), ?_, p1, ?_⟩
      · show IInv M b _
        rw [hes] at hib2
        have : (s.wait.drop i.fire ++ (if taken M N s i then fetched s.pre.ftq.tail i.block i.group else [])).map (·.entry)
            = (s.wait.map (·.entry)).drop i.fire ++ (if taken M N s i then entries s.pre.ftq.tail i.block 0 i.group else []) := by
          rw [List.map_append, List.map_drop]
          congr 1
          split
          · simp [fetched, Function.comp_def]
          · rfl
        rw [this]; exact hib2
      · show Chain N (q.pop N (lasts (s.flight.take i.retire))).head _ _
        rw [p2, hqh]; exact d2

theorem sinv_init (hM : 0 < M) (hN : 0 < N) : SInv M N ⟨PreIdu.init, [], []⟩ [] :=
  ⟨iinv_clear hM, finv_init hN _, rfl⟩

theorem sinv_reach (hM : 0 < M) (hN : 0 < N) {s : Sys} (h : Reach M N s) : ∃ W, SInv M N s W := by
  induction h with
  | init => exact ⟨[], sinv_init hM hN⟩
  | step i _ hv hs ih =>
    obtain ⟨W, hW⟩ := ih
    obtain ⟨s', hs', W', hW'⟩ := sinv_step hW i hv
    rw [hs] at hs'
    cases hs'
    exact ⟨W', hW'⟩

/-- Every instruction of the chain finds its block. -/
theorem chain_mem : ∀ (Q : List Flight) {h W f}, h < N → Chain N h Q W → f ∈ Q →
    ∃ k, k < W.length ∧ f.entry.ftqIdx = (h + k) % N ∧ W[k]? = some f.blk ∧
      f.entry.pc = f.blk.slotPc f.entry.offset
  | [], _, _, _, _, _, hf => by cases hf
  | g :: Q, h, [], f, _, hc, _ => absurd hc (by simp [Chain])
  | g :: Q, h, b :: W, f, hh, hc, hf => by
    obtain ⟨a1, a2, a3, a4⟩ := hc
    rcases List.mem_cons.1 hf with rfl | hf
    · exact ⟨0, by simp, by simp [a1, Nat.mod_eq_of_lt hh], by simp [a2], by rw [a2]; exact a3⟩
    · by_cases hl : g.last = true
      · rw [if_pos hl] at a4
        obtain ⟨k, h1, h2, h3, h4⟩ := chain_mem Q (inc_lt (by omega)) a4 hf
        exact ⟨k + 1, by simp; omega, by rw [h2, inc_add], by simpa using h3, h4⟩
      · rw [if_neg hl] at a4
        exact chain_mem Q hh a4.2 hf

theorem chain_lasts : ∀ (Q : List Flight) {h W}, Chain N h Q W → lasts Q = W.length
  | [], _, W, hc => by have : W = [] := hc; rw [this]; rfl
  | g :: Q, h, [], hc => absurd hc (by simp [Chain])
  | g :: Q, h, b :: W, hc => by
    obtain ⟨_, _, _, a4⟩ := hc
    by_cases hl : g.last = true
    · rw [if_pos hl] at a4
      have := chain_lasts Q a4
      simp only [lasts, List.countP_cons, hl, if_true, List.length_cons] at this ⊢
      omega
    · rw [if_neg hl] at a4
      have := chain_lasts Q a4.2
      simp only [lasts, List.countP_cons, hl] at this ⊢
      simpa using this

theorem commitInfo_nil (q : Ftq) (c b) : commitInfo N q c b [] = some [] := by cases b <;> rfl

/-- The commit-time cursor follows the blocks of the retired instructions. -/
theorem commitInfo_spec {q : Ftq} {W0 : List Block} (hq : FInv N q W0) :
    ∀ (A : List Flight) {R} (j : Nat) , j < W0.length →
      Chain N ((q.head + j) % N) (A ++ R) (W0.drop j) →
      commitInfo N q ((q.head + j) % N) true (A.map fun f => (f.entry.ftqIdx, f.last))
        = some (A.map fun f => some f.blk.train)
  | [], R, j, hj, hc => rfl
  | f :: A, R, j, hj, hc => by
    have hh := hq.headLt
    have hlen := hq.len
    have hd : W0.drop j = W0[j] :: W0.drop (j + 1) := List.drop_eq_getElem_cons hj
    rw [hd] at hc
    obtain ⟨a1, a2, a3, a4⟩ := hc
    have hent : q.ent ((q.head + j) % N) = W0[j] := by
      have := ring_getElem? N q.ent W0.length q.head j hh hj
      rw [hq.win, List.getElem?_eq_getElem hj] at this
      exact (Option.some.inj this).symm
    rw [List.map_cons, commitInfo, if_neg (by simp [a1])]
    simp only
    rw [hent, ← a2]
    by_cases hl : f.last = true
    · rw [if_pos hl] at a4
      rw [if_pos hl]
      have hnext : ((q.head + j) % N + 1) % N = (q.head + (j + 1)) % N := by rw [Nat.mod_add_mod]; rfl
      have hinc : inc N ((q.head + j) % N) = (q.head + (j + 1)) % N := hnext
      rw [hnext]
      rw [hinc] at a4
      by_cases hlast : j + 1 = W0.length
      · rw [if_pos (by rw [hq.tail, hlast])]
        rw [List.drop_eq_nil_of_le (by omega)] at a4
        have hnil : A = [] := by
          cases A with
          | nil => rfl
          | cons a A => exact absurd a4 (by simp [Chain])
        subst hnil
        rfl
      · have hne : ¬ (q.head + (j + 1)) % N = q.tail := by
          rw [hq.tail]
          by_cases hfull : W0.length < N
          · intro h'; exact hlast (mod_inj hh (by omega) hfull h')
          · intro h'
            have : W0.length = N := by omega
            rw [this, Nat.add_mod_right, ← Nat.add_zero (q.head)] at h'
            have := mod_inj hh (by omega) (by omega) h'
            omega
        rw [if_neg hne, commitInfo_spec hq A (j + 1) (by omega) a4]
        rfl
    · rw [if_neg hl] at a4
      rw [if_neg hl, commitInfo_spec hq A j hj (by rw [hd]; exact a4.2)]
      rfl

end Verif.Proofs.PreIdu

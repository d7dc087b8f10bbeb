import Verif.Proofs.BpuHist
/- The stacks, the queues and the reachable states. -/
namespace Verif.Bpu

/-! ### Speculative history of a group -/

theorem groupBranches_off (s : Slot) (r : List Slot) (h : s.on = false) : groupBranches (s :: r) = groupBranches r := by
  unfold groupBranches onPath
  rw [List.filter_cons_of_neg (by simp [h])]

theorem groupBranches_taken (s : Slot) (r : List Slot) (h : s.on = true) (ht : s.taken = true) :
    groupBranches (s :: r) = if s.ty = .direct then [(s.pc, true)] else [] := by
  unfold groupBranches onPath
  rw [List.filter_cons_of_pos h]
  dsimp only
  rw [List.takeWhile_cons_of_neg (by simp [ht]), List.dropWhile_cons_of_neg (by simp [ht])]
  by_cases hd : s.ty = .direct <;> simp [hd, ht]

theorem groupBranches_on (s : Slot) (r : List Slot) (h : s.on = true) (ht : s.taken = false) :
    groupBranches (s :: r) = (if s.ty = .direct then [(s.pc, false)] else []) ++ groupBranches r := by
  unfold groupBranches onPath
  rw [List.filter_cons_of_pos h]
  dsimp only
  rw [List.takeWhile_cons_of_pos (by simp [ht]), List.dropWhile_cons_of_pos (by simp [ht])]
  by_cases hd : s.ty = .direct <;> simp [hd, ht]

theorem reps_walk {c : Cfg} (ok : c.Ok) (ss : List Slot) : ∀ {l h}, Reps c l h →
    Reps c ((groupBranches ss).reverse ++ l) (walkHist c ss h) := by
  induction ss with
  | nil => intro l h r; exact r
  | cons s rest ih =>
    intro l h r
    unfold walkHist
    rcases hon : s.on with _ | _
    · rw [groupBranches_off s rest hon]; exact ih r
    · dsimp only
      simp only [Bool.not_true, Bool.false_eq_true, if_false]
      rcases ht : s.taken with _ | _
      · rw [groupBranches_on s rest hon ht]
        simp only [Bool.false_eq_true, if_false]
        by_cases hd : s.ty = .direct
        · simp only [hd, if_true, List.reverse_append, List.reverse_cons, List.reverse_nil, List.nil_append,
            List.append_assoc, List.singleton_append]
          exact ih (reps_push ok r _ _)
        · simp only [hd, if_false, List.nil_append]
          exact ih r
      · rw [groupBranches_taken s rest hon ht]
        by_cases hd : s.ty = .direct
        · simp only [hd, if_true, List.reverse_singleton, List.singleton_append]
          exact reps_push ok r _ _
        · simp only [hd, if_false, if_true, List.reverse_nil, List.nil_append]
          exact r

theorem history_cons (a : List Br) (u : Upd) (r : List Upd) :
    (condBranches (u :: r)).reverse ++ a =
      (condBranches r).reverse ++ (if u.ty = .direct then (u.pc, u.dir) :: a else a) := by
  unfold condBranches
  by_cases h : u.ty = .direct <;> simp [h]

theorem reps_arch {c : Cfg} (ok : c.Ok) (us : List Upd) : ∀ {a s : List Br} {ha hs : GHist}, Reps c a ha → Reps c s hs →
    Reps c (repair us a s) (us.foldl (archStep c) (hs, ha)).1 ∧
    Reps c ((condBranches us).reverse ++ a) (us.foldl (archStep c) (hs, ha)).2 := by
  induction us with
  | nil => intro a s ha hs ra rs; exact ⟨rs, ra⟩
  | cons u r ih =>
    intro a s ha hs ra rs
    rw [history_cons, List.foldl_cons]
    unfold repair
    by_cases hd : u.ty = .direct
    · have e : archStep c (hs, ha) u = (if u.predDir ≠ u.dir then ha.push c u.pc u.dir else hs, ha.push c u.pc u.dir) := by
        unfold archStep; rw [if_pos hd]
      rw [if_pos hd, if_pos hd, e]
      have rp := reps_push ok ra u.pc u.dir
      refine ih rp ?_
      split
      · exact rp
      · exact rs
    · have e : archStep c (hs, ha) u = (hs, ha) := by unfold archStep; rw [if_neg hd]
      rw [if_neg hd, if_neg hd, e]
      exact ih ra rs

/-! ### Return stacks -/

theorem contents_length (r : Ras) : r.contents.length = r.cnt := by simp [Ras.contents]

theorem contents_get (r : Ras) (k : Nat) : r.contents[k]? = if k < r.cnt then some (r.stk (r.cnt - 1 - k)) else none := by
  unfold Ras.contents
  rw [List.getElem?_map]
  by_cases h : k < r.cnt
  · rw [List.getElem?_range h, if_pos h]; rfl
  · rw [List.getElem?_eq_none (by simp; omega), if_neg h]; rfl

theorem contents_push {c : Cfg} (hd : 0 < c.rasDepth) {r : Ras} (hr : r.cnt ≤ c.rasDepth) (v : W32) :
    (r.push c v).contents = (v :: r.contents).take c.rasDepth ∧ (r.push c v).cnt ≤ c.rasDepth := by
  unfold Ras.push
  split
  · next h =>
    refine ⟨?_, by show r.cnt + 1 ≤ _; omega⟩
    rw [List.take_of_length_le (by simp [contents_length]; omega)]
    apply List.ext_getElem?
    intro k
    rw [contents_get]
    cases k with
    | zero => simp
    | succ k =>
      rw [List.getElem?_cons_succ, contents_get]
      dsimp only
      by_cases hk : k < r.cnt
      · rw [if_pos (by omega), if_pos hk, if_neg (by omega)]
        congr 2; omega
      · rw [if_neg (by omega), if_neg hk]
  · next h =>
    have he : r.cnt = c.rasDepth := by omega
    refine ⟨?_, hr⟩
    apply List.ext_getElem?
    intro k
    rw [contents_get, List.getElem?_take]
    dsimp only
    by_cases hk : k < r.cnt
    · have hk' : k < c.rasDepth := by omega
      rw [if_pos hk, if_pos hk']
      cases k with
      | zero => simp [he]
      | succ k =>
        have h1 : k < r.cnt := by omega
        have h2 : ¬ r.cnt - 1 - (k + 1) = c.rasDepth - 1 := by omega
        rw [List.getElem?_cons_succ, contents_get, if_pos h1, if_neg h2]
        congr 2; omega
    · have hk' : ¬ k < c.rasDepth := by omega
      rw [if_neg hk, if_neg hk']

theorem contents_pop (r : Ras) : r.pop.contents = r.contents.tail := by
  unfold Ras.pop
  split
  · next h =>
    apply List.ext_getElem?
    intro k
    rw [contents_get, List.getElem?_tail, contents_get]
    dsimp only
    by_cases hk : k < r.cnt - 1
    · rw [if_pos hk, if_pos (by omega)]
      congr 2; omega
    · rw [if_neg hk, if_neg (by omega)]
  · next h =>
    have : r.cnt = 0 := by omega
    have e : r.contents = [] := by
      apply List.eq_nil_of_length_eq_zero
      rw [contents_length, this]
    rw [e]; rfl

theorem pop_cnt {c : Cfg} {r : Ras} (h : r.cnt ≤ c.rasDepth) : r.pop.cnt ≤ c.rasDepth := by
  unfold Ras.pop
  split
  · show r.cnt - 1 ≤ _; omega
  · exact h

/-- A stack holds these recent calls. -/
def Holds (c : Cfg) (l : List W32) (r : Ras) : Prop := r.contents = l ∧ r.cnt ≤ c.rasDepth

theorem holds_op {c : Cfg} (hd : 0 < c.rasDepth) {l : List W32} {r : Ras} (h : Holds c l r) :
    (∀ v, Holds c (recentCalls c.rasDepth l (.call v)) (r.push c v)) ∧ Holds c (recentCalls c.rasDepth l .ret) r.pop := by
  obtain ⟨hc, hn⟩ := h
  refine ⟨fun v => ?_, ?_, pop_cnt hn⟩
  · have := contents_push hd hn v
    exact ⟨by rw [this.1, hc]; rfl, this.2⟩
  · rw [contents_pop, hc]; rfl

theorem holds_arch {c : Cfg} (hd : 0 < c.rasDepth) (us : List Upd) : ∀ {l : List W32} {r : Ras}, Holds c l r →
    Holds c ((us.filterMap opOf).foldl (recentCalls c.rasDepth) l) (us.foldl (archRasStep c) r) := by
  induction us with
  | nil => intro l r h; exact h
  | cons u rest ih =>
    intro l r h
    rw [List.foldl_cons]
    unfold archRasStep
    by_cases h1 : u.ty = .call
    · have e : opOf u = some (.call (u.pc + 4#32)) := by unfold opOf; rw [if_pos h1]
      rw [if_pos h1, List.filterMap_cons_some e, List.foldl_cons]
      exact ih ((holds_op hd h).1 _)
    · by_cases h2 : u.ty = .ret
      · have e : opOf u = some .ret := by unfold opOf; rw [if_neg h1, if_pos h2]
        rw [if_neg h1, if_pos h2, List.filterMap_cons_some e, List.foldl_cons]
        exact ih (holds_op hd h).2
      · have e : opOf u = none := by unfold opOf; rw [if_neg h1, if_neg h2]
        rw [if_neg h1, if_neg h2, List.filterMap_cons_none e]
        exact ih h

theorem holds_walk {c : Cfg} (hd : 0 < c.rasDepth) (ss : List Slot) {l : List W32} {r : Ras} (h : Holds c l r) :
    Holds c (match groupOp ss with | some o => recentCalls c.rasDepth l o | none => l) (walkRas c ss r) := by
  induction ss with
  | nil => exact h
  | cons s rest ih =>
    unfold walkRas groupOp
    rw [List.find?_cons]
    rcases hot : (s.on && s.taken) with _ | _
    · have : (!s.on || !s.taken) = true := by
        revert hot; cases s.on <;> cases s.taken <;> simp
      rw [if_pos this]
      exact ih
    · have : (!s.on || !s.taken) = false := by
        revert hot; cases s.on <;> cases s.taken <;> simp
      rw [this]
      dsimp only
      simp only [Bool.false_eq_true, if_false]
      by_cases h1 : s.ty = .call
      · rw [if_pos h1, if_pos h1]; exact (holds_op hd h).1 _
      · by_cases h2 : s.ty = .ret
        · rw [if_neg h1, if_neg h1, if_pos h2, if_pos h2]; exact (holds_op hd h).2
        · rw [if_neg h1, if_neg h1, if_neg h2, if_neg h2]; exact h

/-- What is remembered is the innermost part of the open calls. -/
theorem recent_prefix (d : Nat) (ops : List RasOp) : recent d ops <+: openCalls ops := by
  unfold recent openCalls
  suffices H : ∀ l l' : List W32, l <+: l' →
      ops.foldl (recentCalls d) l <+: ops.foldl (fun l o => match o with | .call v => v :: l | .ret => l.tail) l' from
    H [] [] (List.prefix_refl _)
  induction ops with
  | nil => intro l l' h; exact h
  | cons o r ih =>
    intro l l' h
    rw [List.foldl_cons, List.foldl_cons]
    apply ih
    cases o with
    | call v =>
      show (v :: l).take d <+: v :: l'
      refine (List.take_prefix d (v :: l)).trans ?_
      obtain ⟨t, rfl⟩ := h
      exact ⟨t, rfl⟩
    | ret =>
      show l.tail <+: l'.tail
      obtain ⟨t, rfl⟩ := h
      cases l with
      | nil => exact List.nil_prefix
      | cons a l => exact ⟨t, rfl⟩

/-- Nothing is forgotten while the calls are not nested deeper than the stack. -/
theorem recent_exact (d : Nat) (ops : List RasOp) (h : ∀ p, p <+: ops → (openCalls p).length ≤ d) :
    recent d ops = openCalls ops := by
  suffices H : ∀ n, recent d (ops.take n) = openCalls (ops.take n) by
    have := H ops.length
    rwa [List.take_length] at this
  intro n
  induction n with
  | zero => rfl
  | succ n ih =>
    by_cases hn : n < ops.length
    · rw [List.take_succ_eq_append_getElem hn]
      have hp := h (ops.take (n + 1)) (List.take_prefix _ _)
      rw [List.take_succ_eq_append_getElem hn] at hp
      unfold recent openCalls at *
      rw [List.foldl_append, List.foldl_append, ih]
      rw [List.foldl_append] at hp
      revert hp
      simp only [List.foldl_cons, List.foldl_nil]
      cases ops[n] with
      | call v =>
        intro hp
        show (v :: _).take d = v :: _
        exact List.take_of_length_le hp
      | ret => intro _; rfl
    · rw [List.take_of_length_le (by omega)] at ih ⊢
      exact ih

/-! ### Queues -/

structure QOk (c : Cfg) (q : QBank) : Prop where
  rd : q.rd < c.qDepth
  cnt : q.count ≤ c.qDepth
  wr : q.wr = (q.rd + q.count) % c.qDepth

theorem mod_add {a b m : Nat} (ha : a < m) (hb : b ≤ m) : (a + b) % m = if a + b < m then a + b else a + b - m := by
  split
  · next h => exact Nat.mod_eq_of_lt h
  · next h => rw [Nat.mod_eq_sub_mod (by omega), Nat.mod_eq_of_lt (by omega)]

theorem waiting_length (c : Cfg) (q : QBank) : (q.waiting c).length = q.count := by simp [QBank.waiting]

theorem waiting_get (c : Cfg) (q : QBank) (k : Nat) :
    (q.waiting c)[k]? = if k < q.count then some (q.slot ((q.rd + k) % c.qDepth)) else none := by
  unfold QBank.waiting
  rw [List.getElem?_map]
  by_cases h : k < q.count
  · rw [List.getElem?_range h, if_pos h]; rfl
  · rw [List.getElem?_eq_none (by simp; omega), if_neg h]; rfl

theorem q_pop {c : Cfg} {q : QBank} (h : QOk c q) : QOk c (q.pop c) ∧ (q.pop c).waiting c = (q.waiting c).tail := by
  have hm : 0 < c.qDepth := by have := h.rd; omega
  unfold QBank.pop
  split
  · next hc =>
    have hr := h.rd
    have hcn := h.cnt
    have e1 : (q.rd + 1) % c.qDepth = if q.rd + 1 < c.qDepth then q.rd + 1 else q.rd + 1 - c.qDepth := mod_add hr (by omega)
    refine ⟨⟨Nat.mod_lt _ hm, by show q.count - 1 ≤ _; omega, ?_⟩, ?_⟩
    · show q.wr = ((q.rd + 1) % c.qDepth + (q.count - 1)) % c.qDepth
      rw [h.wr, Nat.mod_add_mod]
      congr 1; omega
    · apply List.ext_getElem?
      intro k
      rw [waiting_get, List.getElem?_tail, waiting_get]
      dsimp only
      by_cases hk : k < q.count - 1
      · rw [if_pos hk, if_pos (by omega), Nat.mod_add_mod]
        congr 3; omega
      · rw [if_neg hk, if_neg (by omega)]
  · next hc =>
    have h0 : q.count = 0 := by omega
    refine ⟨h, ?_⟩
    have e : q.waiting c = [] := List.eq_nil_of_length_eq_zero (by rw [waiting_length, h0])
    rw [e]; rfl

theorem q_push {c : Cfg} {q : QBank} (h : QOk c q) (hl : q.count < c.qDepth) (u : Upd) :
    QOk c (q.push c u) ∧ (q.push c u).waiting c = q.waiting c ++ [u] := by
  have hr := h.rd
  refine ⟨⟨hr, hl, ?_⟩, ?_⟩
  · show (q.wr + 1) % c.qDepth = (q.rd + (q.count + 1)) % c.qDepth
    rw [h.wr, Nat.mod_add_mod]; rfl
  · apply List.ext_getElem?
    intro k
    rw [waiting_get]
    unfold QBank.push
    dsimp only
    rw [h.wr]
    by_cases hk : k < q.count
    · rw [if_pos (by omega), List.getElem?_append_left (by rw [waiting_length]; exact hk), waiting_get, if_pos hk,
        if_neg]
      rw [mod_add hr (by omega), mod_add hr (by omega)]
      split <;> split <;> omega
    · rw [List.getElem?_append_right (by rw [waiting_length]; omega), waiting_length]
      by_cases he : k = q.count
      · subst he; simp
      · rw [if_neg (by omega), List.getElem?_eq_none (by simp; omega)]

theorem pushAll_spec {c : Cfg} (us : List (Option Upd)) : ∀ {b b' : Nat → QBank}, (∀ k, QOk c (b k)) → pushAll c us b = some b' →
    ∀ k, QOk c (b' k) ∧ (b' k).waiting c = (b k).waiting c ++ ofBank c k (us.filterMap id) := by
  induction us with
  | nil =>
    intro b b' h e k
    obtain rfl : b = b' := by simpa [pushAll] using e
    exact ⟨h k, by simp [ofBank]⟩
  | cons o r ih =>
    intro b b' h e k
    cases o with
    | none => exact ih h e k
    | some u =>
      unfold pushAll at e
      dsimp only at e
      split at e
      · next hlt =>
        have hq := q_push (h (bankSel c u.pc)) hlt u
        have hall : ∀ j, QOk c (if j = bankSel c u.pc then (b (bankSel c u.pc)).push c u else b j) := by
          intro j; split
          · exact hq.1
          · exact h j
        have := ih hall e k
        refine ⟨this.1, ?_⟩
        rw [this.2]
        have ef : (List.filterMap id (some u :: r)) = u :: r.filterMap id := by simp
        rw [ef]
        unfold ofBank
        by_cases hk : k = bankSel c u.pc
        · rw [if_pos hk, hq.2, List.filter_cons_of_pos (by simp [hk]), hk]
          simp
        · rw [if_neg hk, List.filter_cons_of_neg (by simp; exact fun h => hk h.symm)]
      · cases e

theorem bankSel_lt {c : Cfg} (ok : c.Ok) (pc : W32) : bankSel c pc < c.bankNum :=
  Nat.mod_lt _ (by have := ok.fetchPos; have := ok.banksFetch; omega)

/-- The pushes succeed when there is room for all of them. -/
theorem pushAll_room {c : Cfg} (ok : c.Ok) (us : List (Option Upd)) : ∀ {b : Nat → QBank},
    (∀ k, k < c.bankNum → (us.filterMap id).length = 0 ∨ (b k).count + (us.filterMap id).length ≤ c.qDepth) →
    (pushAll c us b).isSome := by
  induction us with
  | nil => intro b _; rfl
  | cons o r ih =>
    intro b h
    cases o with
    | none => exact ih (fun k hk => by simpa using h k hk)
    | some u =>
      have ef : (List.filterMap id (some u :: r)) = u :: r.filterMap id := by simp
      rw [ef] at h
      have hb := h (bankSel c u.pc) (bankSel_lt ok _)
      rw [List.length_cons] at hb
      unfold pushAll
      dsimp only
      rw [if_pos (by omega)]
      apply ih
      intro k hlt
      have hk := h k hlt
      rw [List.length_cons] at hk
      right
      split
      · show (b (bankSel c u.pc)).count + 1 + _ ≤ _; omega
      · omega

/-! ### One cycle -/

/-- The state after a cycle. -/
def after (c : Cfg) (s : St) (i : In) (bank : Nat → QBank) : St :=
  let isRe := i.refetch.isSome
  let base := i.refetch.getD s.pc
  let going := i.ready || isRe
  let ss := slots c base going i
  let ras := if isRe then s.archRas.top else s.specRas.top
  let next := if going then nextAddr ras (boundary c base) ss else boundary c base
  let upd := going && !isRe
  let spec1 := if upd then walkHist c ss s.spec else s.spec
  let specRas1 := if upd then walkRas c ss s.specRas else s.specRas
  let us := i.upds.filterMap id
  let p := us.foldl (archStep c) (spec1, s.arch)
  let archRas := us.foldl (archRasStep c) s.archRas
  { pc := match i.refetch with
      | some a => a
      | none => if going then next else s.pc
    spec := if isRe then p.2 else p.1
    arch := p.2
    specRas := if isRe then archRas else specRas1
    archRas := archRas
    bank := bank }

theorem cycle_after {c : Cfg} {s s' : St} {i : In} {o : Out} (h : cycle c s i = some (s', o)) :
    ∃ bank, pushAll c i.upds (fun b => (s.bank b).pop c) = some bank ∧ s' = after c s i bank ∧ o.full = queueFull c bank ∧
      o.train = (fun b => if (s.bank b).count ≠ 0 then some ((s.bank b).slot (s.bank b).rd) else none) := by
  unfold cycle at h
  dsimp only at h
  split at h
  · cases h
  · next bank hb =>
    simp only [Option.some.injEq, Prod.mk.injEq] at h
    obtain ⟨rfl, rfl⟩ := h
    exact ⟨bank, hb, rfl, rfl, rfl⟩

theorem cycle_isSome {c : Cfg} {s : St} {i : In} (h : (pushAll c i.upds (fun b => (s.bank b).pop c)).isSome) :
    ∃ s' o, cycle c s i = some (s', o) := by
  obtain ⟨bank, hb⟩ := Option.isSome_iff_exists.mp h
  unfold cycle
  dsimp only
  rw [hb]
  exact ⟨_, _, rfl⟩

/-- The invariant of the reachable states. -/
structure Inv (c : Cfg) (L : Log) (s : St) : Prop where
  arch : Reps c (history L.retired) s.arch
  spec : Reps c L.spec s.spec
  archRas : Holds c (recent c.rasDepth (L.retired.filterMap opOf)) s.archRas
  specRas : Holds c L.calls s.specRas
  bank : ∀ b, QOk c (s.bank b)

theorem history_append (a b : List Upd) : history (a ++ b) = (condBranches b).reverse ++ history a := by
  simp [history, condBranches]

theorem recent_append (d : Nat) (a b : List RasOp) : recent d (a ++ b) = b.foldl (recentCalls d) (recent d a) := by
  simp [recent]

theorem inv_step {c : Cfg} (ok : c.Ok) {L : Log} {s s' : St} {i : In} {o : Out} (h : Inv c L s)
    (e : cycle c s i = some (s', o)) : Inv c (L.next c s.pc i) s' := by
  obtain ⟨bank, hb, rfl, _, _⟩ := cycle_after e
  have hbank : ∀ b, QOk c (bank b) := fun b =>
    (pushAll_spec i.upds (fun k => (q_pop (h.bank k)).1) hb b).1
  have hra := holds_arch ok.rasPos (i.upds.filterMap id) h.archRas
  rw [← recent_append, ← List.filterMap_append] at hra
  unfold Log.next after
  cases hre : i.refetch with
  | some a =>
    dsimp only
    have hh := reps_arch ok (i.upds.filterMap id) h.arch h.spec
    rw [← history_append] at hh
    simp only [Option.isSome_some, Bool.or_true, Bool.not_true, Bool.and_false, Bool.false_eq_true, if_false, if_true]
    exact ⟨hh.2, hh.2, hra, hra, hbank⟩
  | none =>
    dsimp only
    simp only [Option.isSome_none, Option.getD_none, Bool.or_false, Bool.not_false, Bool.and_true, Bool.false_eq_true, if_false]
    have hspec : Reps c (if i.ready = true then (groupBranches (slots c s.pc i.ready i)).reverse ++ L.spec else L.spec)
        (if i.ready = true then walkHist c (slots c s.pc i.ready i) s.spec else s.spec) := by
      split
      · exact reps_walk ok _ h.spec
      · exact h.spec
    have hh := reps_arch ok (i.upds.filterMap id) h.arch hspec
    rw [← history_append] at hh
    refine ⟨hh.2, hh.1, hra, ?_, hbank⟩
    cases hr : i.ready with
    | true =>
      rw [if_pos rfl, if_pos rfl]
      exact holds_walk ok.rasPos _ h.specRas
    | false => exact h.specRas

theorem inv_init (c : Cfg) (ok : c.Ok) (pc0 : W32) : Inv c ⟨[], [], []⟩ (init pc0) where
  arch := reps_nil c
  spec := reps_nil c
  archRas := ⟨rfl, Nat.zero_le _⟩
  specRas := ⟨rfl, Nat.zero_le _⟩
  bank b := ⟨by have := ok.commitPos; have := ok.qCommit; show 0 < _; omega, Nat.zero_le _, by
    show 0 = (0 + 0) % c.qDepth; simp⟩

theorem reach_inv {c : Cfg} (ok : c.Ok) {pc0 : W32} {L : Log} {s : St} (h : Reach c pc0 L s) : Inv c L s := by
  induction h with
  | init => exact inv_init c ok pc0
  | step _ e ih => exact inv_step ok ih e

/-! ### Pacing -/

theorem filterMap_length_le {α : Type} (l : List (Option α)) : (l.filterMap id).length ≤ l.length :=
  List.length_filterMap_le _ _

theorem retires_le (stall : Bool) (r : RobIn) : (retires stall r).length ≤ max r.row.length 1 := by
  unfold retires Rob.commits
  split
  · simp
  · exact Nat.le_trans (filterMap_length_le _) (Nat.le_max_left _ _)
  · next k _ _ =>
    refine Nat.le_trans ?_ (Nat.le_max_right _ _)
    cases r.row[k]?.bind id <;> simp

theorem filterMap_none {α : Type} (l : List (Option α)) (h : l.any Option.isSome = false) : l.filterMap id = [] := by
  induction l with
  | nil => rfl
  | cons a t ih =>
    cases a with
    | none => exact ih (by simpa using h)
    | some x => simp at h

/-- Under the stall at most one instruction retires. -/
theorem retires_stalled (r : RobIn) : (retires true r).length ≤ 1 := by
  unfold retires
  generalize hd : Rob.arbitrate r.row r.empty r.mispred true r.intReq r.storePending = d
  cases d with
  | nothing => simp [Rob.commits]
  | single k int =>
    show ((r.row[k]?.bind id).toList).length ≤ 1
    cases r.row[k]?.bind id <;> simp
  | group =>
    show (r.row.filterMap id).length ≤ 1
    have hnone : r.row.any Option.isSome = false := by
      rcases ht : r.row.any Option.isSome with _ | _
      · rfl
      exfalso
      unfold Rob.arbitrate at hd
      simp only [ht, Bool.and_self, Bool.not_true, Bool.and_false, Bool.false_and, Bool.false_eq_true, if_false] at hd
      split at hd
      · cases hd
      · split at hd
        · cases hd
        · split at hd <;> cases hd
    rw [filterMap_none _ hnone]
    simp

end Verif.Bpu

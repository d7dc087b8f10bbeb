import Verif.Proofs.IssueQueue
import Verif.Props.Rob
/-
C22, C23: the issue queue, for any number of slots, ports, physical registers and branch tags, in
every state reachable from reset under any inputs that satisfy `IssueWindow.Valid`.
-/
namespace Verif.Props
open Verif.IssueQueue Verif.IssueWindow Verif.Proofs.IssueQueue

variable {n P size : Nat} {policy : Bool} {ports : List Port} {s : State n}

/-- C22: at any time the queue holds exactly the instructions the bag of `IssueWindow` holds, and
each looks exactly as if it had listened to every broadcast since it arrived: an operand waits iff
it waited on arrival and its register has not been broadcast since. -/
theorem C22_broadcast {w : List (Mem n)} (h : Hist P size policy ports s w) :
    (queued s).Perm (w.map now) ∧
    ∀ m ∈ w, ∀ k p, waits (now m) k p ↔ waits m.1 k p ∧ p ∉ m.2 := by
  refine ⟨hist_perm h, fun m _ k p => ?_⟩
  simp only [waits, now, hear, hearSrc, Bool.and_eq_true, Bool.not_eq_true', Bool.and_eq_false_iff,
    List.contains_eq_mem, decide_eq_false_iff_not]
  constructor
  · rintro ⟨a, ⟨b, c⟩, rfl⟩
    exact ⟨⟨a, b, rfl⟩, c.resolve_left (by simp [a])⟩
  · rintro ⟨⟨a, b, rfl⟩, c⟩
    exact ⟨a, ⟨b, Or.inr c⟩, rfl⟩

/-- C22: the bag never gets stuck: every run of the queue is accompanied by a run of the bag, and
no input that respects the room the queue announced makes it overflow. -/
theorem C22_runs {w : List (Mem n)} (h : Hist P size policy ports s w) (i : Input n)
    (hv : Valid P size s i) : ∃ s' w', step P size policy ports s i = some s' ∧
      Hist P size policy ports s' w' := by
  obtain ⟨s', rest, h1, _, h3, _⟩ := step_spec (policy := policy) (ports := ports)
    (inv_reach (hist_reach h)) i hv
  obtain ⟨g, r, h5, h6⟩ := perm_split now _ _ w ((hist_perm h).symm.trans h3)
  exact ⟨s', _, h1, .step i h hv h1 h5 h6⟩

/-- C22: after a cycle nothing in the queue waits for a register that was broadcast in it. -/
theorem C22_none_missed (h : Reach P size policy ports s) (i : Input n) (hv : Valid P size s i)
    {s' : State n} (hs : step P size policy ports s i = some s') :
    ∀ u ∈ queued s', ∀ k, ∀ p ∈ i.wakes, ¬ waits u k p := by
  obtain ⟨s1, rest, h1, _, _, h4⟩ := step_spec (policy := policy) (ports := ports) (inv_reach h) i hv
  rw [hs] at h1
  cases h1
  intro u hu k p hp hw
  have := h4.mem_iff.1 hu
  obtain ⟨v, hv', rfl⟩ := List.mem_map.1 this
  obtain ⟨x, _, rfl⟩ := List.mem_map.1 (List.mem_filter.1 hv').1
  obtain ⟨a, b, c⟩ := hw
  change ((x.src k).busy && !((x.src k).en && i.wakes.contains (x.src k).preg)) = true at b
  change (x.src k).en = true at a
  change (x.src k).preg = p at c
  simp [a, c, hp] at b

/-- C22: the word and bit that the wake-up matrix uses for (register, slot) are used by no other
pair, and the word exists. -/
theorem C22_addressing {size P p q i j : Nat} (hi : i < size) (hj : j < size) (hp : p < P) :
    let words := (size + 63) / 64
    wordOf words p i < P * words ∧
    (wordOf words p i = wordOf words q j ∧ bitOf i = bitOf j ↔ p = q ∧ i = j) := by
  intro words
  have hw : ∀ x, x < size → x / 64 < words := fun x hx => by simp only [words]; omega
  have h1 := hw i hi
  have h2 := hw j hj
  refine ⟨?_, ?_, ?_⟩
  · have h3 : (p + 1) * words ≤ P * words := Nat.mul_le_mul_right _ hp
    rw [Nat.succ_mul] at h3
    simp only [wordOf]
    omega
  · rintro ⟨a, b⟩
    simp only [wordOf, bitOf] at a b
    have hpos : 0 < words := by omega
    have e1 := congrArg (· / words) a
    have e2 := congrArg (· % words) a
    simp only [Nat.mul_add_mod_self_right, Nat.mul_add_div, Nat.mod_eq_of_lt h1, Nat.mod_eq_of_lt h2,
      Nat.mul_comm _ words, Nat.mul_add_mod_self_left, Nat.mul_add_div hpos, Nat.div_eq_of_lt h1,
      Nat.div_eq_of_lt h2] at e1 e2
    omega
  · rintro ⟨rfl, rfl⟩
    exact ⟨rfl, rfl⟩

/-- C23: every granted instruction was queued and ready, its port supports it and its functional
unit accepts it; nothing is granted while issue is blocked. -/
theorem C23_sound (h : Reach P size policy ports s) (i : Input n) {x : Nat} {p : Port}
    (hg : (x, p) ∈ granted policy ports s i.fuReady i.block) :
    ∃ u ∈ queued s, s.ent[x]? = some (some u) ∧ ready u ∧ p ∈ ports ∧ p.cap u.op = true ∧
      i.fuReady p.idx u.op = true ∧ i.block = false := by
  obtain ⟨u, h1, h2, h3, h4, h5, h6⟩ := (granted_spec (inv_reach h) i.fuReady i.block).1 _ hg
  refine ⟨u, mem_queued.2 ⟨x, h1⟩, h1, ?_, h3, h4, h5, h6⟩
  intro k q hw
  simp only [isReady, Bool.and_eq_true, Bool.or_eq_true, Bool.not_eq_true'] at h2
  cases k
  · rcases h2.1 with h2 | h2
    · exact absurd (hw.1.symm.trans h2) (by simp)
    · exact absurd (hw.2.1.symm.trans h2) (by simp)
  · rcases h2.2 with h2 | h2
    · exact absurd (hw.1.symm.trans h2) (by simp)
    · exact absurd (hw.2.1.symm.trans h2) (by simp)

/-- C23: no instruction is granted to two ports and no port is granted two instructions. -/
theorem C23_exclusive (h : Reach P size policy ports s) (i : Input n) (hp : (ports.map (·.idx)).Nodup) :
    ((granted policy ports s i.fuReady i.block).map (·.1)).Nodup ∧
    ((granted policy ports s i.fuReady i.block).map (·.2.idx)).Nodup := by
  obtain ⟨_, h2, h3⟩ := granted_spec (policy := policy) (ports := ports) (inv_reach h) i.fuReady i.block
  refine ⟨h2, ?_⟩
  have := (h3.map (·.idx))
  rw [List.map_map] at this
  exact hp.sublist this

/-- C23: in a cycle exactly the granted instructions leave, the new ones arrive, the killed ones
disappear: nothing is lost or duplicated; and the occupancy the queue announces is the number of
instructions in it. -/
theorem C23_conservation (h : Reach P size policy ports s) (i : Input n) (hv : Valid P size s i) :
    ∃ s' rest, step P size policy ports s i = some s' ∧
      (queued s).Perm (grants policy ports s i ++ rest) ∧
      (queued s').Perm ((((rest ++ i.enq).map (hear i.wakes)).filter (fun u => !killed i u)).map (scrub i)) ∧
      freeSlots size s' + (queued s').length = size := by
  obtain ⟨s', rest, h1, h2, h3, h4⟩ := step_spec (policy := policy) (ports := ports) (inv_reach h) i hv
  refine ⟨s', rest, h1, h3, h4, ?_⟩
  have a := h2.count
  have b : (queued s').length ≤ s'.ent.length := List.length_filterMap_le _ _
  have c := h2.len
  unfold freeSlots
  omega

/-! ### Age order -/

section age
variable {B L : Nat} {r : Rob.State}

theorem C23_older_iff (hL : 0 < L) (hr : RobQueue.Reach B L r) {a b : Uop n} {l m x y size : Nat}
    (ha : atPos L r a x) (hb : atPos L r b y) (hl : l < size) (hm : m < size) :
    olderThan l a m b = decide (x * size + l < y * size + m) := by
  obtain ⟨v, hv, v1, v2⟩ := ha
  obtain ⟨w, hw, w1, w2⟩ := hb
  have h1 := C37_age hL hr hv hw
  have h2 := C37_age hL hr hw hv
  have far : ∀ {c d : Nat}, c < d → c * size + size ≤ d * size := fun {c d} h => by
    have := Nat.mul_le_mul_right size (show c + 1 ≤ d from h)
    rwa [Nat.succ_mul] at this
  have key : olderThan l a m b = true ↔ x < y ∨ (x = y ∧ l < m) := by
    simp only [RobQueue.younger, v1, v2, w1, w2] at h1 h2
    unfold olderThan
    by_cases hf : a.robFlag = b.robFlag
    · simp only [hf, BEq.rfl, if_true, decide_eq_true_eq] at h1 h2
      rw [if_pos hf]
      by_cases hi : a.robIdx = b.robIdx
      · rw [if_neg (by simpa using hi), decide_eq_true_eq]
        omega
      · rw [if_pos hi, decide_eq_true_eq]
        omega
    · have hf' : ¬ b.robFlag = a.robFlag := fun e => hf e.symm
      simp only [beq_iff_eq, hf, hf', if_false, decide_eq_true_eq] at h1 h2
      rw [if_neg hf]
      by_cases hi : a.robIdx = b.robIdx
      · exfalso
        have : x = y := by omega
        subst this
        rw [hv] at hw
        cases hw
        exact hf (v2.symm.trans w2)
      · rw [if_pos hi, decide_eq_true_eq]
        omega
  rw [Bool.eq_iff_iff, key, decide_eq_true_eq]
  constructor
  · rintro (h | ⟨rfl, h⟩)
    · have := far h; omega
    · omega
  · intro h
    rcases Nat.lt_trichotomy x y with h3 | h3 | h3
    · exact Or.inl h3
    · subst h3; exact Or.inr ⟨rfl, by omega⟩
    · have := far h3; omega

/-- The ready list is in program order. -/
theorem C23_ready_sorted (hL : 0 < L) (hr : RobQueue.Reach B L r) (h : Reach P size true ports s)
    (pos : Nat → Nat)
    (hpos : ∀ (x : Nat) (u : Uop n), s.ent[x]? = some (some u) → atPos L r u (pos x)) :
    (readyList true s).Pairwise (fun x y => pos x * size + x ≤ pos y * size + y) := by
  have hi := inv_reach h
  show (sortBy (older s.ent) (gather s.count s.ent 0 0)).Pairwise _
  apply sortBy_before (age := fun x => pos x * size + x)
  obtain ⟨h1, _⟩ := gather_spec s.count s.ent 0 0 (by rw [hi.count, Nat.zero_add]; rfl)
  intro a ha b hb
  obtain ⟨a', u, hu, _, e⟩ := (h1 a).1 ha
  obtain ⟨b', v, hv, _, e'⟩ := (h1 b).1 hb
  rw [Nat.zero_add] at e e'
  subst e; subst e'
  have la : a < size := hi.len ▸ (List.getElem?_eq_some_iff.1 hu).1
  have lb : b < size := hi.len ▸ (List.getElem?_eq_some_iff.1 hv).1
  have : older s.ent a b = olderThan a u b v := by simp [older, hu, hv]
  rw [this, C23_older_iff hL hr (hpos a u hu) (hpos b v hv) la lb]

theorem ready_isReady {u : Uop n} (h : ready u) : isReady u = true := by
  have h1 := h false (u.src false).preg
  have h2 := h true (u.src true).preg
  simp only [waits, and_true, not_and, Bool.not_eq_true] at h1 h2
  simp only [isReady, Bool.and_eq_true, Bool.or_eq_true, Bool.not_eq_true']
  constructor
  · cases h3 : (u.src false).en with
    | false => left; rfl
    | true => right; exact h1 h3
  · cases h3 : (u.src true).en with
    | false => left; rfl
    | true => right; exact h2 h3

/-- C23: if instruction `u` is granted port `p` while an instruction `v` that is older in program
order, ready, and executable by `p` is queued, then `v` was offered an earlier port that supports
it, and it was granted that port unless that port's functional unit refused it. -/
theorem C23_oldest_partial (hL : 0 < L) (hr : RobQueue.Reach B L r) (h : Reach P size true ports s)
    (hrob : ∀ u ∈ queued s, ∃ m, atPos L r u m) (i : Input n) {x j mu mv : Nat} {p : Port} {u v : Uop n}
    (hg : (x, p) ∈ granted true ports s i.fuReady i.block) (hu : s.ent[x]? = some (some u))
    (hv : s.ent[j]? = some (some v)) (hready : ready v) (hcap : p.cap v.op = true)
    (pu : atPos L r u mu) (pv : atPos L r v mv) (hlt : mv < mu) :
    ∃ q, [q, p].Sublist ports ∧ q.cap v.op = true ∧
      ((j, q) ∈ granted true ports s i.fuReady i.block ∨ i.fuReady q.idx v.op = false) := by
  classical
  have hi := inv_reach h
  -- choose positions
  let pos : Nat → Nat := fun y => if y = x then mu else if y = j then mv else
    if hy : ∃ w m, s.ent[y]? = some (some w) ∧ atPos L r w m then hy.choose_spec.choose else 0
  have hxj : j ≠ x := fun e => by
    subst e
    rw [hv] at hu
    cases hu
    obtain ⟨v1, a1, b1, c1⟩ := pu
    obtain ⟨v2, a2, b2, c2⟩ := pv
    have := (C37_age hL hr a1 a2).2 hlt
    simp [RobQueue.younger, b1, b2, c1, c2] at this
  have hpos : ∀ (y : Nat) (w : Uop n), s.ent[y]? = some (some w) → atPos L r w (pos y) := by
    intro y w hw
    by_cases h1 : y = x
    · subst h1
      rw [hu] at hw
      cases hw
      simpa [pos] using pu
    · by_cases h2 : y = j
      · subst h2
        rw [hv] at hw
        cases hw
        simpa [pos, h1] using pv
      · have hy : ∃ w m, s.ent[y]? = some (some w) ∧ atPos L r w m := by
          obtain ⟨m, hm⟩ := hrob w (mem_queued.2 ⟨y, hw⟩)
          exact ⟨w, m, hw, hm⟩
        have he : pos y = hy.choose_spec.choose := by simp only [pos, h1, h2, if_false, dif_pos hy]
        rw [he]
        have hsp := hy.choose_spec.choose_spec
        generalize hy.choose_spec.choose = m at hsp
        have h3 : hy.choose = w := by simpa using hsp.1.symm.trans hw
        rw [h3] at hsp
        exact hsp.2
  have hs := C23_ready_sorted hL hr h pos hpos
  obtain ⟨r1, r2⟩ := readyList_spec (policy := true) hi
  have hjr : j ∈ readyList true s := (r1 j).2 ⟨v, hv, ready_isReady hready⟩
  obtain ⟨hsch, hok⟩ := List.mem_filter.1 hg
  have hblk : i.block = false := by
    simp only [Bool.and_eq_true, Bool.not_eq_true'] at hok
    exact hok.2
  change (x, p) ∈ assign s.ent (readyList true s) ports [] at hsch
  obtain ⟨a1, a2, a3⟩ := assign_spec s.ent (readyList true s) ports []
  have hxr := (a1 _ hsch).1
  obtain ⟨A, Bs, hAB⟩ := List.append_of_mem hxr
  obtain ⟨pre, post, hsplit⟩ := List.append_of_mem hsch
  have hnd := r2
  rw [hAB] at hnd hs hjr
  have hiA : x ∉ A := fun hx => by
    have := (List.nodup_append.1 hnd).2.2 x hx x List.mem_cons_self
    exact this rfl
  have lx : x < size := hi.len ▸ (List.getElem?_eq_some_iff.1 hu).1
  have hjA : j ∈ A := by
    rcases List.mem_append.1 hjr with h1 | h1
    · exact h1
    · rcases List.mem_cons.1 h1 with h1 | h1
      · exact absurd h1 hxj
      · have := (List.pairwise_cons.1 (List.pairwise_append.1 hs).2.1).1 j h1
        have hpx : pos x = mu := by simp [pos]
        have hpj : pos j = mv := by simp [pos, hxj]
        rw [hpx, hpj] at this
        have lj : j < size := hi.len ▸ (List.getElem?_eq_some_iff.1 hv).1
        have h5 := Nat.mul_le_mul_right size (show mv + 1 ≤ mu from hlt)
        rw [Nat.succ_mul] at h5
        omega
  have hop : opAt s.ent j = v.op := by simp [opAt, hv]
  rcases assign_first s.ent _ ports [] pre post x p hsplit A Bs hAB hiA j hjA (by rw [hop]; exact hcap) with h1 | h1
  · cases h1
  · obtain ⟨⟨j', q⟩, hq, he⟩ := List.mem_map.1 h1
    change j' = j at he
    subst he
    have hqa : (j', q) ∈ assign s.ent (readyList true s) ports [] := by
      rw [hsplit]; exact List.mem_append_left _ hq
    refine ⟨q, ?_, ?_, ?_⟩
    · refine List.Sublist.trans ?_ a3
      rw [hsplit, List.map_append]
      have e1 : [q].Sublist (pre.map (·.2)) := List.singleton_sublist.2 (List.mem_map.2 ⟨_, hq, rfl⟩)
      have e2 : [p].Sublist (((x, p) :: post).map (·.2)) := List.singleton_sublist.2 (by simp)
      exact e1.append e2
    · have := (a1 _ hqa).2.2.2
      rwa [hop] at this
    · cases hfr : i.fuReady q.idx v.op with
      | false => right; rfl
      | true =>
        left
        refine List.mem_filter.2 ⟨hqa, ?_⟩
        simp [hop, hfr, hblk]

end age

/-- C23: no port idles while there is work for it: with issue open and all units accepting, if a
ready instruction is granted nothing then every port that supports it is granted another one. -/
theorem C23_work_conserving (h : Reach P size policy ports s) (i : Input n) {j : Nat} {v : Uop n}
    (hv : s.ent[j]? = some (some v)) (hready : ready v) (hb : i.block = false)
    (hfu : ∀ q o, i.fuReady q o = true)
    (hn : ∀ q, (j, q) ∉ granted policy ports s i.fuReady i.block) {p : Port} (hp : p ∈ ports)
    (hcap : p.cap v.op = true) : ∃ x, (x, p) ∈ granted policy ports s i.fuReady i.block := by
  have hi := inv_reach h
  have hall : ∀ g, g ∈ assign s.ent (readyList policy s) ports [] →
      g ∈ granted policy ports s i.fuReady i.block := fun g hg =>
    List.mem_filter.2 ⟨hg, by simp [hfu, hb]⟩
  have hop : opAt s.ent j = v.op := by simp [opAt, hv]
  obtain ⟨x, _, _, h1, _⟩ := assign_total s.ent (readyList policy s) ports [] j p hp
    (((readyList_spec (policy := policy) hi).1 j).2 ⟨v, hv, ready_isReady hready⟩) (by simp)
    (fun hm => by
      obtain ⟨⟨j', q⟩, hg, he⟩ := List.mem_map.1 hm
      change j' = j at he
      subst he
      exact hn q (hall _ hg)) (by rw [hop]; exact hcap)
  exact ⟨x, hall _ h1⟩

/-! ### A concrete run

Three slots, four registers, two ports that both execute operation 0 (the second also operation 1).
Cycle 0 enqueues a consumer of register 2 (younger) and a ready instruction; cycle 1 broadcasts
register 2 and enqueues an instruction that waits for registers 2 and 3. -/

namespace IqRun

def src (en busy : Bool) (p : Nat) : Src := ⟨en, busy, p⟩
def mk (id op : Nat) (a b : Src) (m : BitVec 4) (idx : Nat) (f : Bool) : Uop 4 :=
  ⟨id, fun k => if k then b else a, op, m, idx, f⟩
def no : Src := ⟨false, false, 0⟩
def prts : List Port := [⟨0, fun o => o == 0⟩, ⟨5, fun o => o == 0 || o == 1⟩]
def idle : Input 4 := ⟨fun _ _ => true, false, [], [], false, false, 0#4, 0#4⟩
def u1 : Uop 4 := mk 1 0 (src true true 2) no 0b0010#4 3 false
def u2 : Uop 4 := mk 2 0 (src true false 2) no 0#4 2 false
def u3 : Uop 4 := mk 3 1 (src true true 2) (src true true 3) 0b0110#4 1 false
def i0 : Input 4 := { idle with enq := [u1, u2] }
def i1 : Input 4 := { idle with wakes := [2], enq := [u3], fuReady := fun p _ => p == 5 }
def s0 : State 4 := IssueQueue.init 4 3
def s1 : State 4 := (step 4 3 true prts s0 i0).getD s0
def s2 : State 4 := (step 4 3 true prts s1 i1).getD s1

/-- what is in the queue: identity and waiting flags -/
def view (s : State 4) : List (Nat × Bool × Bool) :=
  (queued s).map (fun u => (u.id, (u.src false).busy, (u.src true).busy))

example : view s1 = [(1, true, false), (2, false, false)] := by decide +kernel
example : ((granted true prts s1 idle.fuReady false).map (fun g => (g.1, g.2.idx))) = [(1, 0)] := by
  decide +kernel
-- port 0 refuses: instruction 2 stays although port 5 could have executed it
example : (granted true prts s1 i1.fuReady false).map (fun g => (g.1, g.2.idx)) = [] := by decide +kernel
example : view s2 = [(1, false, false), (2, false, false), (3, false, true)] := by decide +kernel
example : ((granted true prts s2 idle.fuReady false).map (fun g => (g.1, g.2.idx))) = [(1, 0), (0, 5)] := by
  decide +kernel

theorem valid0 : Valid 4 3 s0 i0 where
  room := by decide
  preg := by
    intro u hu k
    simp only [i0, List.mem_cons, List.not_mem_nil, or_false] at hu
    rcases hu with rfl | rfl <;> cases k <;> decide

theorem valid1 : Valid 4 3 s1 i1 where
  room := by decide +kernel
  preg := by
    intro u hu k
    simp only [i1, List.mem_cons, List.not_mem_nil, or_false] at hu
    subst hu
    cases k <;> decide

theorem step0 : step 4 3 true prts s0 i0 = some s1 := by
  obtain ⟨s', _, h, _⟩ := C23_conservation (policy := true) (ports := prts) Reach.init i0 valid0
  have h' : step 4 3 true prts s0 i0 = some s' := h
  simp [s1, h']

theorem reach1 : Reach 4 3 true prts s1 := .step i0 .init valid0 step0

theorem step1 : step 4 3 true prts s1 i1 = some s2 := by
  obtain ⟨s', _, h, _⟩ := C23_conservation reach1 i1 valid1
  simp [s2, h]

theorem reach2 : Reach 4 3 true prts s2 := .step i1 reach1 valid1 step1

example : (prts.map (·.idx)).Nodup := by decide
example : ∀ u ∈ queued s2, ∀ k, ∀ p ∈ i1.wakes, ¬ waits u k p := C22_none_missed reach1 i1 valid1 step1
example : ∃ w, Hist 4 3 true prts s2 w := by
  obtain ⟨a, w, h1, h2⟩ := C22_runs (ports := prts) (policy := true) (.init) i0 valid0
  have h1' : step 4 3 true prts s0 i0 = some a := h1
  rw [step0] at h1'
  cases h1'
  obtain ⟨b, w', h3, h4⟩ := C22_runs h2 i1 valid1
  rw [step1] at h3
  cases h3
  exact ⟨w', h4⟩

-- all three belong to instructions of the reorder buffer state `Props.s2` (indices 0 to 3)
theorem in_rob : ∀ u ∈ queued s2, ∃ m, atPos 2 Props.s2 u m := by
  intro u hu
  have h : ∀ u ∈ queued s2, u.robFlag = false ∧ u.robIdx < 4 := by decide +kernel
  obtain ⟨h1, h2⟩ := h u hu
  refine ⟨u.robIdx, ?_⟩
  have h3 : ∀ x < 4, ∃ v, (RobQueue.insts 2 Props.s2)[x]? = some v ∧ v.robIdx = x ∧ v.robFlag = false := by
    intro x hx
    match x with
    | 0 => exact ⟨_, rfl, rfl, rfl⟩
    | 1 => exact ⟨_, rfl, rfl, rfl⟩
    | 2 => exact ⟨_, rfl, rfl, rfl⟩
    | 3 => exact ⟨_, rfl, rfl, rfl⟩
    | n + 4 => omega
  obtain ⟨v, a, b, c⟩ := h3 _ h2
  exact ⟨v, a, b, c.trans h1.symm⟩

def w1 : Uop 4 := (s2.ent[0]?.join).getD u1
def w2 : Uop 4 := (s2.ent[1]?.join).getD u2
theorem w2_ready : ready w2 := by
  intro k p hw
  cases k
  · exact absurd hw.2.1 (by decide +kernel)
  · exact absurd hw.1 (by decide +kernel)

-- instruction 1 is granted port 5; the older instruction 2 was offered port 0
example : ∃ q, [q, (⟨5, fun o => o == 0 || o == 1⟩ : Port)].Sublist prts ∧ q.cap w2.op = true ∧
    ((1, q) ∈ granted true prts s2 idle.fuReady idle.block ∨ idle.fuReady q.idx w2.op = false) :=
  C23_oldest_partial (by decide) Props.reach2 reach2 in_rob idle (x := 0) (j := 1) (mu := 3) (mv := 2)
    (u := w1) (v := w2) (List.mem_of_getElem? (i := 1) rfl) rfl rfl w2_ready rfl
    ⟨_, rfl, rfl, rfl⟩ ⟨_, rfl, rfl, rfl⟩ (by decide)

end IqRun

/-- C23, what is missing: the full claim "no ready older instruction that the port could execute is
passed over" is false.  Ports are matched with instructions before looking at which functional
units can accept work, so when the unit behind the first port refuses, an older instruction waits
while a younger one issues on the second port, which could have executed the older one. -/
theorem C23_passed_over_negation :
    ∃ (ports : List Port) (s : State 4) (fu : Nat → Nat → Bool) (p : Port) (u v : Uop 4),
      Reach 4 3 true ports s ∧ s.ent[0]? = some (some u) ∧ s.ent[1]? = some (some v) ∧
      (0, p) ∈ granted true ports s fu false ∧ ready v ∧ p.cap v.op = true ∧
      fu p.idx v.op = true ∧ u.robFlag = v.robFlag ∧ v.robIdx < u.robIdx ∧
      ∀ q, (1, q) ∉ granted true ports s fu false := by
  let fu : Nat → Nat → Bool := fun p _ => p == 5
  have hgr : granted true IqRun.prts IqRun.s2 fu false = [(0, ⟨5, fun o => o == 0 || o == 1⟩)] := rfl
  refine ⟨IqRun.prts, IqRun.s2, fu, ⟨5, fun o => o == 0 || o == 1⟩, _, _, IqRun.reach2, rfl, rfl, ?_, ?_,
    rfl, rfl, rfl, by decide, ?_⟩
  · rw [hgr]; exact List.mem_cons_self
  · intro k p hw
    cases k
    · exact absurd hw.2.1 (by decide)
    · exact absurd hw.1 (by decide)
  · intro q hq
    rw [hgr] at hq
    simp at hq

end Verif.Props

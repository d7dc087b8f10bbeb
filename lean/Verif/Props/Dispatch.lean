import Verif.Proofs.Dispatch
/-
C24, C40-C43: the dispatch stage, for any group width, any limits and any number of branch tags, in
every state reachable from reset under inputs that satisfy `DispatchGroup.Valid`.
-/
namespace Verif.Props
open Verif.Dispatch Verif.DispatchGroup Verif.Proofs.Dispatch
open Verif.Decode (DecInst MicroOp Iq decompose)

variable {n W : Nat} {c : Cfg} {s : State n}

/-- C24: the instructions dispatched in a cycle are the oldest waiting ones, in order (with the tags
of branches resolved this cycle removed). -/
theorem C24_in_order (h : Reach c W s) (i : Input n) :
    (fired (comb c s i)).map (·.inst) <+: (waiting s).map (scrub i) := by
  obtain ⟨rest, h1, _⟩ := fired_prefix' c (wf_reach h) i
  have := slots_waiting c s i
  rw [h1, List.map_append] at this
  exact ⟨_, this⟩

/-- C24: all or nothing: each queue receives exactly the micro-operations of the dispatched
instructions that belong to it, oldest first, and nothing of any other instruction. -/
theorem C24_all_or_nothing (h : Reach c W s) (i : Input n) (q : Iq) :
    sent (comb c s i) q =
      (fired (comb c s i)).flatMap (fun a => (packets a).filter (fun p => p.mop.iq = q)) :=
  sent_eq c (wf_reach h) i q

/-- C24: no queue receives more than it announced room for, nor more than it has ports. -/
theorem C24_room (h : Reach c W s) (i : Input n) (q : Iq) :
    (sent (comb c s i) q).length ≤ i.ready q ∧ (sent (comb c s i) q).length ≤ c.ports q :=
  sent_room c (wf_reach h) i q

/-- C24: a CSR access, `mret`, `ecall`, `ebreak` or atomic is dispatched only into an empty machine
and as the first of its group; nothing is dispatched behind an atomic or `wfi` in its cycle. -/
theorem C24_serial (h : Reach c W s) (i : Input n) {pre post : List (Alloc n)} {a : Alloc n}
    (e : fired (comb c s i) = pre ++ a :: post) :
    (a.inst.dec.type ∈ [.csr, .mret, .ecall, .ebreak, .amo] → i.robEmpty = true ∧ pre = []) ∧
    (a.inst.dec.type ∈ [.amo, .wfi] → post = []) := by
  have hs := fired_serial i (i.flush || i.mispred || i.robStall)
    ((slotsOf c s i).zip (comb c s i).flags) false false (zip_robValid c s i _) pre a post
    (by rw [← e, fired_eq c (wf_reach h)]; rfl)
  refine ⟨fun ht => ?_, fun ht => hs.2 (by simpa using ht)⟩
  have := hs.1 (by
    simp only [List.mem_cons, List.not_mem_nil, or_false] at ht
    rcases ht with ht | ht | ht | ht | ht <;> simp [isCsr, ht])
  exact ⟨this.1, this.2.2⟩

/-- C24: nothing is dispatched while the reorder buffer is full or stalls dispatch, nor in the cycle
of a flush or misprediction. -/
theorem C24_blocked (h : Reach c W s) (i : Input n)
    (hb : i.robReady = false ∨ i.robStall = true ∨ i.flush = true ∨ i.mispred = true) :
    fired (comb c s i) = [] ∧ ∀ q, sent (comb c s i) q = [] := by
  have hf : fired (comb c s i) = [] := by
    rw [fired_eq c (wf_reach h)]
    have : (comb c s i).fire = List.replicate ((slotsOf c s i).zip (comb c s i).flags).length false :=
      fireGo_blocked i _ (by rcases hb with hb | hb | hb | hb <;> simp [hb]) _ _ _
    rw [this, firedOf_false]
  exact ⟨hf, fun q => by rw [C24_all_or_nothing h, hf]; rfl⟩

/-- C24: the oldest waiting instruction goes exactly when nothing it needs is missing. -/
theorem C24_progress (h : Reach c W s) (i : Input n) {u : Inst n} {t : List (Inst n)}
    (hw : waiting s = u :: t) :
    fired (comb c s i) ≠ [] ↔
      i.robReady = true ∧ i.robStall = false ∧ i.flush = false ∧ i.mispred = false ∧
      (isLoad u.dec = true → 0 < i.ldqFree ∧ 0 < c.ports .ld ∧ 0 < c.ldPorts ∧ i.ldqAllocValid 0 = true) ∧
      (isStore u.dec = true → 0 < i.stqFree ∧ 0 < c.stPorts) ∧
      (∀ m ∈ decompose u.dec, 0 < c.ports m.iq ∧ 0 < i.ready m.iq) ∧
      (u.dec.type ∈ [.csr, .mret, .ecall, .ebreak, .amo] → i.robEmpty = true) := by
  have hp := progress c i s.busy i.wakes s.slots 0 s.flags [] u t (wf_reach h) hw
  rw [fired_eq c (wf_reach h)]
  refine Iff.trans hp ?_
  have ht : (isCsr u.dec = true ∨ u.dec.type = .amo) ↔
      u.dec.type ∈ [.csr, .mret, .ecall, .ebreak, .amo] := by
    simp [isCsr, or_assoc]
  rw [canGo, ht]
  simp only [Bool.or_eq_false_iff, ldFits, stFits, Bool.and_eq_true, decide_eq_true_eq, and_assoc]
  constructor
  · rintro ⟨a, b, c', d, e⟩; exact ⟨a, d, b, c', e⟩
  · rintro ⟨a, b, c', d, e⟩; exact ⟨a, c', d, b, e⟩

/-- C40: a dispatched load or store is stamped with the store-queue position just after all older
stores; a store takes exactly that position, through as many ports as there are older stores in the
group; a load takes the load-queue entry announced for its rank, which is free. -/
theorem C40_positions (h : Reach c W s) (i : Input n) {pre post : List (Alloc n)} {a : Alloc n}
    (e : fired (comb c s i) = pre ++ a :: post) :
    let st := pre.countP (fun x => isStore x.inst.dec)
    let ld := pre.countP (fun x => isLoad x.inst.dec)
    (isLoad a.inst.dec = true ∨ isStore a.inst.dec = true →
      a.stqIdx = (i.stqTail + st) % c.stqSize ∧
      a.stqFlag = Bool.xor i.stqTailFlag ((i.stqTail + st) / c.stqSize % 2 == 1)) ∧
    a.stqPort = (if isStore a.inst.dec then some st else none) ∧
    a.ldqPort = (if isLoad a.inst.dec then some ld else none) ∧
    (isLoad a.inst.dec = true →
      a.ldqIdx = i.ldqAllocIdx ld ∧ i.ldqAllocValid ld = true ∧ ld < i.ldqFree) ∧
    (isStore a.inst.dec = true → st < i.stqFree) := by
  obtain ⟨rest, h1, _⟩ := fired_prefix' c (wf_reach h) i
  have := placed_go c i s.busy i.wakes s.slots 0 0 0 [] _ rest h1
    (by rw [fired_eq c (wf_reach h)]; exact fired_robValid i _ _ _ _) pre a post e
  simpa only [Placed, Nat.zero_add] using this

/-- C40: an instruction takes a load-queue entry exactly if it is split into a load micro-operation,
and a store-queue entry exactly if it is split into a store-data micro-operation. -/
theorem C40_uses (d : DecInst) :
    (isLoad d = true ↔ ∃ m ∈ decompose d, m.iq = .ld) ∧
    (isStore d = true ↔ ∃ m ∈ decompose d, m.iq = .std) := by
  unfold isLoad isStore decompose
  cases d.type <;> simp only [] <;> first | (simp; done) | skip
  split
  · simp_all
  · split <;> simp_all

/-- C40: with a power-of-two number of banks, slot `b` of the group gets reorder-buffer entry `b` of
the line being filled. -/
theorem C40_rob_slot (i : Input n) {b k : Nat} (hk : c.banks = 2 ^ k) (hb : b < c.banks) {a : Alloc n}
    (ha : (comb c s i).alloc[b]? = some a) :
    a.robIdx = i.robEnq * c.banks + b ∧ a.robFlag = i.robFlag := by
  have := robIdx_go c i s.busy i.wakes s.slots 0 0 0 [] b a ha
  rw [Nat.zero_add, hk, Nat.mul_comm, ← Nat.two_pow_add_eq_or_of_lt (by rw [← hk]; exact hb)] at this
  rw [hk, Nat.mul_comm]
  exact this

/-- C41: over any run without flush, what was dispatched followed by what still waits is what waited
at the start followed by what rename handed over: nothing is lost, duplicated or reordered. -/
theorem C41_stream {s s' : State n} {inn out : List (Inst n)} (h : Reach c W s)
    (hr : Run c s inn out s') :
    out.map ident ++ (waiting s').map ident = (waiting s).map ident ++ inn.map ident := by
  have key : ∀ {s'} {inn out}, Run c s inn out s' → Wf s' ∧
      out.map ident ++ (waiting s').map ident = (waiting s).map ident ++ inn.map ident := by
    intro s' inn out hr
    induction hr with
    | nil => exact ⟨wf_reach h, by simp⟩
    | @step s' inn out i _ hv h1 h2 ih =>
      refine ⟨wf_step c ih.1 i hv.width, ?_⟩
      have hs := congrArg (List.map ident) (step_waiting c ih.1 i h1 h2)
      have hi : (ident ∘ scrub i : Inst n → Inst n) = ident := rfl
      simp only [List.map_append, List.map_map, hi] at hs
      simp only [List.map_append, List.map_map, List.append_assoc]
      have hs' : (fired (comb c s' i)).map (ident ∘ fun x => x.inst) ++ (waiting (step c s' i)).map ident =
          (waiting s').map ident ++ (received (comb c s' i) i).map ident := hs
      rw [hs', ← List.append_assoc, ih.2, List.append_assoc]
  exact (key hr).2

/-- C41: a flush or misprediction empties the stage, and nothing is dispatched in that cycle. -/
theorem C41_flush (h : Reach c W s) (i : Input n) (hf : i.flush = true ∨ i.mispred = true) :
    waiting (step c s i) = [] ∧ fired (comb c s i) = [] := by
  refine ⟨?_, (C24_blocked h i (by rcases hf with hf | hf <;> simp [hf])).1⟩
  have : (i.flush || i.mispred) = true := by rcases hf with hf | hf <;> simp [hf]
  simp [waiting, step, this]

/-- C42: except for `sc.w`, an instruction's expected completion bits are all reported exactly when
every micro-operation it was split into has reported. -/
theorem C42_complete_iff (d : DecInst) (hsc : ¬ (d.type = .amo ∧ d.amoOp = 3#7)) (done : Iq → Bool) :
    (((decompose d).filter (fun m => done m.iq)).foldl (fun b m => b ||| cpltGroup m.iq) 0#3
      = expectMask d) ↔ ∀ m ∈ decompose d, done m.iq = true := by
  rw [expectMask, if_neg hsc]
  unfold decompose
  cases d.type <;> simp only [] <;> first
    | (cases h0 : done .int <;> simp [h0, cpltGroup]; done)
    | (cases h0 : done .br <;> simp [h0, cpltGroup]; done)
    | (cases h0 : done .ld <;> simp [h0, cpltGroup]; done)
    | (cases h0 : done .int <;> cases h1 : done .br <;> simp [h0, h1, cpltGroup]; done)
    | (cases h0 : done .sta <;> cases h1 : done .std <;> simp [h0, h1, cpltGroup]; done)
    | skip
  split
  · cases h0 : done .ld <;> simp [h0, cpltGroup]
  · split
    · cases h0 : done .sta <;> cases h1 : done .std <;> simp [h0, h1, cpltGroup]
    · cases h0 : done .sta <;> cases h1 : done .std <;> cases h2 : done .ld <;>
        simp [h0, h1, h2, cpltGroup]

/-- C43: an operand of a micro-operation sent to an issue queue is marked as waiting exactly if the
value of its register is outstanding at that point of program order: the last event on the register,
among everything before this cycle, this cycle's broadcasts, and the older instructions of the same
group, is the dispatch of a producer.  The one operand that is not a program operand, the old memory
value an atomic's store-data micro-operation reads from the atomic's own destination, waits unless
the operation is a swap. -/
theorem C43_operands {log : List Event} (h : Log c W s log) (i : Input n) (q : Iq) {p : Packet n}
    (hp : p ∈ sent (comb c s i) q) :
    ∃ pre post, fired (comb c s i) = pre ++ p.of :: post ∧
      let seen := log ++ i.wakes.map .wake ++ produces pre
      p.src2Busy = (p.of.inst.dec.src2En && outstanding seen p.src2Preg) ∧
      (p.mop.src1FromDest = false →
        p.src1Busy = (p.of.inst.dec.src1En && outstanding seen p.src1Preg)) ∧
      (p.mop.src1FromDest = true →
        p.src1Preg = p.of.inst.destPreg ∧ p.src1Busy = !(p.of.inst.dec.amoOp == 1#7)) := by
  have hr := log_reach h
  rw [C24_all_or_nothing hr, List.mem_flatMap] at hp
  obtain ⟨a, ha, hp⟩ := hp
  obtain ⟨pre, post, e⟩ := List.append_of_mem ha
  obtain ⟨m, hm, rfl⟩ := List.mem_map.1 (List.mem_filter.1 hp).1
  have hb := fired_busy (wf_reach hr) (noX0_reach hr) i e
  have hf := forced_iff a.inst.dec m hm
  have ho : ∀ x, outstanding (log ++ i.wakes.map .wake ++ produces pre) x =
      ((s.busy x && !i.wakes.contains x) ||
        pre.any fun b => b.inst.dec.destEn && b.inst.destPreg == x) := by
    intro x
    rw [outstanding_produces, outstanding_wakes, log_busy h]
  refine ⟨pre, post, e, ?_⟩
  simp only [ho]
  refine ⟨hb.2, fun h1 => ?_, fun h1 => ?_⟩
  · simp only [h1, hf.1.2 h1, Option.getD_none]
    exact hb.1
  · simp [h1, (hf.2 h1).1]

/-- C43: the decoder never emits an instruction that writes register 0, which is what
`DispatchGroup.Valid.dest` asks of the instructions rename passes on. -/
theorem C43_no_x0_destination (w : BitVec 32) (pf : Bool) :
    (Decode.decodeEntry w pf).destEn = true → (Decode.decodeEntry w pf).destAreg ≠ 0 := by
  cases pf with
  | true => simp [Decode.decodeEntry]
  | false =>
    simp only [Decode.decodeEntry, Bool.false_eq_true, if_false, Decode.decode, Decode.decodeFinish]
    generalize Decode.decodeOpcode w (Decode.decodeFields w) = d
    split
    · split <;> simp_all
    · split <;> simp_all

end Verif.Props

/-! ### Concrete cases meeting the hypotheses -/

namespace Verif.Props.DispRun
open Verif.Dispatch Verif.DispatchGroup
open Verif.Decode (DecInst Iq)

def cfg : Cfg := ⟨fun _ => 2, 2, 2, 4, 2⟩

/-- Inputs with room everywhere. -/
def free (ren : List (Option (Inst 4))) : Input 4 :=
  { stqTail := 3, stqTailFlag := false, stqFree := 2, ldqFree := 2, ldqAllocValid := fun _ => true
    ldqAllocIdx := fun k => k + 5, ready := fun _ => 2, robEnq := 7, robFlag := true, robReady := true
    robEmpty := true, robStall := false, flush := false, mispred := false, clear := 1#4, wakes := [9]
    ren := ren }

def add : Inst 4 :=
  ⟨{ type := .add, destEn := true, destAreg := 1, src1En := true, src2En := true }, 20, 9, 8, 3#4, 100⟩
def store : Inst 4 := ⟨{ type := .store, src1En := true, src2En := true }, 0, 20, 7, 3#4, 101⟩
def amo : Inst 4 :=
  ⟨{ type := .amo, destEn := true, destAreg := 2, src1En := true, src2En := true }, 21, 20, 7, 2#4, 102⟩

/-- A group `add p20 ← p9, p8; store p7 → [p20]` waits, and dispatching p9's producer is on record. -/
def i0 : Input 4 := free [some add, some store]
def s1 : State 4 := step cfg (init 4 2) i0

theorem log1 : Log cfg 2 s1 ([] ++ i0.wakes.map .wake ++ produces (fired (comb cfg (init 4 2) i0))) :=
  .step i0 .init ⟨rfl, by intro u hu; simp [i0, free] at hu; rcases hu with rfl | rfl <;> decide⟩

theorem reach1 : Reach cfg 2 s1 := .step i0 .init ⟨rfl, by intro u hu; simp [i0, free] at hu; rcases hu with rfl | rfl <;> decide⟩

/-- With room, both are dispatched: one micro-operation to the integer queue, one each to the store
address and store data queues, and the stage takes the next group. -/
example : ((fired (comb cfg s1 i0)).map (·.inst.ftq), (comb cfg s1 i0).ready,
    (sent (comb cfg s1 i0) .int).length, (sent (comb cfg s1 i0) .sta).length,
    (sent (comb cfg s1 i0) .std).length) = ([100, 101], true, 1, 1, 1) := by decide +kernel

/-- The address operand of the store waits (its producer is the older `add`), its data does not. -/
example : (sent (comb cfg s1 i0) .sta).map (fun p => (p.src1Preg, p.src1Busy, p.src2Busy)) =
    [(20, true, false)] := by decide +kernel

/-- The store takes position 3 of the store queue through port 0 and reorder-buffer entry 15. -/
example : (fired (comb cfg s1 i0)).map (fun a => (a.stqIdx, a.stqPort, a.robIdx)) =
    [(0, none, 14), (3, some 0, 15)] := by decide +kernel

/-- Without room in the store-data queue the store sends nothing, not even its address. -/
def full : Input 4 := { i0 with ready := fun q => if q = .std then 0 else 2 }
example : ((fired (comb cfg s1 full)).map (·.inst.ftq), (comb cfg s1 full).ready,
    (sent (comb cfg s1 full) .sta).length, (waiting (step cfg s1 full)).map (·.ftq)) =
    ([100], false, 0, [101]) := by decide +kernel

/-- An atomic behind an `add` waits for the machine to drain, then goes alone. -/
def s2 : State 4 := step cfg (init 4 2) (free [some amo, some add])
example : ((fired (comb cfg s2 i0)).map (·.inst.ftq), (fired (comb cfg s2 { i0 with robEmpty := false })).length,
    (waiting (step cfg s2 i0)).map (·.ftq)) = ([102], 0, [100]) := by decide +kernel

/-- The atomic's store-data micro-operation waits for the atomic's own load. -/
example : (sent (comb cfg s2 i0) .std).map (fun p => (p.mop.src1FromDest, p.src1Preg, p.src1Busy)) =
    [(true, 21, true)] := by decide +kernel

/-- After `add` is dispatched its destination is outstanding, until it is broadcast. -/
example : ((step cfg s1 (free [none, none])).busy 20,
    (step cfg (step cfg s1 (free [none, none])) { i0 with wakes := [20] }).busy 20) =
    (true, false) := by decide +kernel

/-- A run that meets the hypotheses of `C41_stream`: one group in, one instruction out. -/
example : Run cfg s1 ([] ++ received (comb cfg s1 full) full)
    ([] ++ (fired (comb cfg s1 full)).map (·.inst)) (step cfg s1 full) :=
  .step full (.nil _) ⟨rfl, by intro u hu; simp [full, i0, free] at hu; rcases hu with rfl | rfl <;> decide⟩ rfl rfl

/-- `C42_complete_iff` on an atomic that is not `sc.w`: three micro-operations, three bits. -/
example : expectMask amo.dec = 7#3 ∧ expectMask store.dec = 6#3 ∧ expectMask add.dec = 1#3 := by
  decide +kernel

end Verif.Props.DispRun

import Verif.Spec.MmioSpec
/- The registers behind each stage of an access, and that every cycle follows `Log`. -/
namespace Verif.Mmio
open Verif.Device (modeled)
open Verif.MmioSpec

/-- The state belongs to the stage. -/
def Rel (s : Sys) : Stage → Prop
  | .free => s.unc = none ∧ s.port.resp = false ∧ s.port.busy = false ∧ s.seen.ready = true
  | .due n a v => s.unc = some a ∧ s.port.busy = false ∧
      match n with
      | 0 => s.seen.mmio = true ∧ s.seen.rdata = v
      | 1 => s.seen.mmio = false ∧ s.port.resp = true ∧ s.port.rdata = v ∧ (modeled a.addr = true ∨ s.seen.ready = false)
      | _ => False
  | .asking a => s.unc = some a ∧ a.load = false ∧ s.seen.mmio = false ∧
      s.port = ⟨true, true, false, false, a.addr, a.wdata, a.f3, 0#32⟩
  | .waiting a => s.unc = some a ∧ a.load = false ∧ s.seen.mmio = false ∧
      s.port = ⟨true, true, true, false, a.addr, a.wdata, a.f3, 0#32⟩

theorem posted_req (a : Acc) : Req.write a.addr (sizeOf a.f3) (packData a.wdata a.f3) (packStrb a.f3) = posted a := by
  have d : ∀ w : BitVec 32, w &&& 0xFF#32 = BitVec.ofNat 32 (w.toNat % 2 ^ 8) := by
    intro w; apply BitVec.eq_of_toNat_eq
    have e : (0xFF#32).toNat = 2 ^ 8 - 1 := rfl
    rw [BitVec.toNat_and, e, Nat.and_two_pow_sub_one_eq_mod, BitVec.toNat_ofNat]
    omega
  have d' : ∀ w : BitVec 32, w &&& 0xFFFF#32 = BitVec.ofNat 32 (w.toNat % 2 ^ 16) := by
    intro w; apply BitVec.eq_of_toNat_eq
    have e : (0xFFFF#32).toNat = 2 ^ 16 - 1 := rfl
    rw [BitVec.toNat_and, e, Nat.and_two_pow_sub_one_eq_mod, BitVec.toNat_ofNat]
    omega
  have d4 : ∀ w : BitVec 32, w = BitVec.ofNat 32 (w.toNat % 2 ^ 32) := by
    intro w; apply BitVec.eq_of_toNat_eq; have := w.isLt; rw [BitVec.toNat_ofNat]; omega
  have h1 : ∀ f : BitVec 3, sizeOf f = bytes f := by decide
  have h2 : ∀ f : BitVec 3, packStrb f = BitVec.ofNat 64 (2 ^ bytes f - 1) := by decide
  have h3 : ∀ f : BitVec 3, f &&& 3#3 = 0#3 → bytes f = 1 := by decide
  have h4 : ∀ f : BitVec 3, f &&& 3#3 ≠ 0#3 → f &&& 3#3 = 1#3 → bytes f = 2 := by decide
  have h5 : ∀ f : BitVec 3, f &&& 3#3 ≠ 0#3 → f &&& 3#3 ≠ 1#3 → bytes f = 4 := by decide
  have h6 : packData a.wdata a.f3 = BitVec.ofNat 32 (a.wdata.toNat % 2 ^ (8 * bytes a.f3)) := by
    unfold packData
    by_cases c : a.f3 &&& 3#3 = 0#3
    · rw [if_pos c, h3 _ c]; exact d _
    · by_cases c' : a.f3 &&& 3#3 = 1#3
      · rw [if_neg c, if_pos c', h4 _ c c']; exact d' _
      · rw [if_neg c, if_neg c', h5 _ c c']; exact d4 _
  rw [h1, h2, h6]; rfl

theorem req_free {s : Sys} (h : s.port.busy = false) : s.port.req = none := by
  simp [Port.req, h]

theorem done_none {s : Sys} (h : s.seen.mmio = false ∨ s.unc = none) : done s = none := by
  unfold done
  rcases h with h | h <;> simp [h]

theorem unit_free {s : Sys} {c : Cyc} (h : s.unc = none) :
    unit s c = if c.kill then c.start.filter (fun a => !a.load) else c.start := by
  unfold unit; simp [h]

theorem unit_keep {s : Sys} {c : Cyc} {a : Acc} (h : s.unc = some a) (m : s.seen.mmio = false) (al : Alive c a) :
    unit s c = some a := by
  unfold unit; rcases al with k | l <;> simp_all

theorem unit_kill {s : Sys} {c : Cyc} {a : Acc} (h : s.unc = some a) (m : s.seen.mmio = false) (al : ¬ Alive c a) :
    unit s c = none := by
  unfold Alive at al
  unfold unit; simp_all

theorem unit_done {s : Sys} {c : Cyc} (m : s.seen.mmio = true) (h : c.start = none) : unit s c = none := by
  unfold unit; simp [m, h]

theorem unit_start {s : Sys} {c : Cyc} {a : Acc} (h : s.unc = none) (e : c.start = some a) (al : Alive c a) :
    unit s c = some a := by
  rw [unit_free h, e]; rcases al with k | l <;> simp_all

theorem unit_drop {s : Sys} {c : Cyc} {a : Acc} (h : s.unc = none) (e : c.start = some a) (al : ¬ Alive c a) :
    unit s c = none := by
  unfold Alive at al
  rw [unit_free h, e]; simp_all

/-- A port with nothing under way. -/
theorem next_none {p : Port} {c : Cyc} (h : p.busy = false) : p.next none c = ({ p with resp := false }, false) := by
  simp [Port.next, h]

theorem step_none {s : Sys} {c : Cyc} (hb : s.port.busy = false) (hu : unit s c = none) : Rel (step s c) .free := by
  unfold step
  rw [hu]; dsimp only; rw [ite_self, next_none hb]
  simp [Rel, hb]

/-- A cycle moves to a stage whose log the cycle extends. -/
theorem rel_step {s : Sys} {g : Stage} {c : Cyc} (r : Rel s g)
    (o1 : ∀ a, c.start = some a → s.unc = none ∧ (a.load = true → modeled a.addr = true)) :
    ∃ g', Rel (step s c) g' ∧ ∀ rest, Log g' rest → Log g (⟨c, done s, s.port.req⟩ :: rest) := by
  have ns : s.unc ≠ none → c.start = none := by
    intro h
    rcases e : c.start with _ | a
    · rfl
    · exact absurd (o1 a e).1 h
  cases g with
  | free =>
    obtain ⟨hu, hp, hb, hr⟩ := r
    rw [done_none (.inr hu), req_free hb]
    rcases e : c.start with _ | a
    · have u0 : unit s c = none := by rw [unit_free hu, e]; simp
      exact ⟨_, (step_none hb u0), fun _ l => .idle e l⟩
    · by_cases al : Alive c a
      · have u1 := unit_start hu e al
        by_cases m : modeled a.addr = true
        · refine ⟨_, ?_, fun _ l => .begun e m al l⟩
          unfold step
          rw [u1, hr]; dsimp only; rw [if_pos rfl]
          simp [Port.next, hb, m, Rel, hp, answer]
        · have m' : modeled a.addr = false := by simpa using m
          have hl : a.load = false := by
            rcases h : a.load with _ | _
            · rfl
            · exact absurd ((o1 a e).2 h) m
          refine ⟨_, ?_, fun _ l => .posts e m' hl l⟩
          unfold step
          rw [u1, hr]; dsimp only; rw [if_pos rfl]
          simp [Port.next, hb, m', Rel, hp, hl]
      · exact ⟨_, (step_none hb (unit_drop hu e al)), fun _ l => .dropped e al l⟩
  | due n a v =>
    obtain ⟨hu, hb, h⟩ := r
    have st := ns (by rw [hu]; exact Option.some_ne_none a)
    rw [req_free hb]
    match n, h with
    | 0, ⟨hm, hv⟩ =>
      have : done s = some (a, v) := by simp [done, hm, hu, hv]
      rw [this]
      exact ⟨_, (step_none hb (unit_done hm st)), fun _ l => .served st l⟩
    | 1, ⟨hm, hp, hv, hx⟩ =>
      rw [done_none (.inl hm)]
      by_cases al : Alive c a
      · refine ⟨_, ?_, fun _ l => .soon st al l⟩
        have u1 := unit_keep hu hm al
        unfold step
        rw [u1]; dsimp only
        rcases hx with m | h
        · rcases hr : s.seen.ready with _ | _
          · rw [if_neg Bool.false_ne_true, next_none hb]
            simp [Rel, hb, hp, hv]
          · rw [if_pos rfl]
            simp [Port.next, hb, m, Rel, hp, hv]
        · rw [h, if_neg Bool.false_ne_true, next_none hb]
          simp [Rel, hb, hp, hv]
      · exact ⟨_, (step_none hb (unit_kill hu hm al)), fun _ l => .flushed st al l⟩
  | asking a =>
    obtain ⟨hu, hl, hm, hp⟩ := r
    have st := ns (by rw [hu]; exact Option.some_ne_none a)
    have u1 := unit_keep (c := c) hu hm (.inr hl)
    have hq : s.port.req = some (posted a) := by rw [← posted_req, hp]; rfl
    rw [done_none (.inl hm), hq]
    rcases e : c.wAcc with _ | _
    · refine ⟨_, ?_, fun _ l => .asks st e l⟩
      unfold step
      rw [u1, hp]
      simp [Port.next, e, Rel, hl]
    · refine ⟨_, ?_, fun _ l => .asked st e l⟩
      unfold step
      rw [u1, hp]
      simp [Port.next, e, Rel, hl]
  | waiting a =>
    obtain ⟨hu, hl, hm, hp⟩ := r
    have st := ns (by rw [hu]; exact Option.some_ne_none a)
    have u1 := unit_keep (c := c) hu hm (.inr hl)
    have hq : s.port.req = none := by rw [hp]; rfl
    rw [done_none (.inl hm), hq]
    rcases e : c.wResp with _ | _
    · refine ⟨_, ?_, fun _ l => .waits st e l⟩
      unfold step
      rw [u1, hp]
      simp [Port.next, e, Rel, hl]
    · refine ⟨_, ?_, fun _ l => .answered st e l⟩
      unfold step
      rw [u1, hp]
      simp [Port.next, e, Rel]

/-- Every run from a stage follows the log. -/
theorem log_of_rel : ∀ (cs : List Cyc) (s : Sys) (g : Stage), Rel s g → Orderly s cs → Log g (trace s cs) := by
  intro cs
  induction cs with
  | nil => intro s g _ _; exact .nil g
  | cons c cs ih =>
    intro s g r o
    obtain ⟨g', r', l⟩ := rel_step r o.1
    exact l _ (ih _ _ r' o.2)

/-- The stage after a run. -/
theorem rel_run : ∀ (cs : List Cyc) (s : Sys) (g : Stage), Rel s g → Orderly s cs → ∃ g', Rel (run s cs) g' := by
  intro cs
  induction cs with
  | nil => intro s g r _; exact ⟨g, r⟩
  | cons c cs ih =>
    intro s g r o
    obtain ⟨g', r', _⟩ := rel_step r o.1
    exact ih _ _ r' o.2

theorem trace_append (s : Sys) (cs ds : List Cyc) : trace s (cs ++ ds) = trace s cs ++ trace (run s cs) ds := by
  induction cs generalizing s with
  | nil => rfl
  | cons c cs ih => simp only [List.cons_append, trace, ih]; rfl

/-- Sign extension by mask, test and fill. -/
theorem extend_eq (raw mask bit fill : BitVec 32) (n : Nat) (hn : 0 < n ∧ n ≤ 32)
    (hm : ∀ i, i < 32 → mask.getLsbD i = decide (i < n)) (hb : ∀ i, i < 32 → bit.getLsbD i = decide (i = n - 1))
    (hf : ∀ i, i < 32 → fill.getLsbD i = decide (n ≤ i)) :
    (let v := raw &&& mask; if v &&& bit ≠ 0#32 then v ||| fill else v) = (raw.setWidth n).signExtend 32 := by
  have key : raw &&& mask &&& bit ≠ 0#32 ↔ raw.getLsbD (n - 1) = true := by
    constructor
    · intro h
      rcases e : raw.getLsbD (n - 1) with _ | _
      · refine absurd (BitVec.eq_of_getLsbD_eq fun i hi => ?_) h
        rw [BitVec.getLsbD_and, BitVec.getLsbD_and, hb i hi, BitVec.getLsbD_zero]
        by_cases c : i = n - 1
        · rw [c, e, Bool.false_and, Bool.false_and]
        · rw [decide_eq_false c, Bool.and_false]
      · rfl
    · intro h e
      have := congrArg (fun x : BitVec 32 => x.getLsbD (n - 1)) e
      simp only [BitVec.getLsbD_and, BitVec.getLsbD_zero] at this
      rw [h, hm _ (by omega), hb _ (by omega), decide_eq_true (by omega), decide_eq_true rfl] at this
      exact nomatch this
  have low : ∀ i, i < 32 → (raw.setWidth n).getLsbD i = (decide (i < n) && raw.getLsbD i) := fun i _ => BitVec.getLsbD_setWidth ..
  refine BitVec.eq_of_getLsbD_eq fun i hi => ?_
  rw [BitVec.getLsbD_signExtend, decide_eq_true hi, Bool.true_and, BitVec.msb_eq_getLsbD_last, low i hi, low (n - 1) (by omega),
    decide_eq_true (show n - 1 < n by omega), Bool.true_and]
  dsimp only
  by_cases c : raw &&& mask &&& bit ≠ 0#32
  · rw [if_pos c, key.1 c, BitVec.getLsbD_or, BitVec.getLsbD_and, hm i hi, hf i hi]
    by_cases d : i < n
    · rw [if_pos d, decide_eq_true d, decide_eq_false (by omega : ¬ n ≤ i)]; simp
    · rw [if_neg d, decide_eq_false d, decide_eq_true (by omega : n ≤ i)]; simp
  · have e : raw.getLsbD (n - 1) = false := by
      rcases h : raw.getLsbD (n - 1) with _ | _
      · rfl
      · exact absurd (key.2 h) c
    rw [if_neg c, e, BitVec.getLsbD_and, hm i hi]
    by_cases d : i < n
    · rw [if_pos d, decide_eq_true d]; simp
    · rw [if_neg d, decide_eq_false d]; simp

theorem zero_eq (raw mask : BitVec 32) (n : Nat) (hm : ∀ i, i < 32 → mask.getLsbD i = decide (i < n)) :
    raw &&& mask = (raw.setWidth n).setWidth 32 := by
  refine BitVec.eq_of_getLsbD_eq fun i hi => ?_
  rw [BitVec.getLsbD_and, hm i hi, BitVec.getLsbD_setWidth, BitVec.getLsbD_setWidth, decide_eq_true hi, Bool.true_and, Bool.and_comm]

/-- A load on the AXI port, before and after its request is taken. -/
def Reading (s : Sys) (a : Acc) (taken : Bool) : Prop :=
  s.unc = some a ∧ s.seen.mmio = false ∧ s.port = ⟨true, false, taken, false, a.addr, a.wdata, a.f3, 0#32⟩

theorem reading_out {s : Sys} {a : Acc} {t : Bool} (h : Reading s a t) :
    (done s, s.port.req) = (none, if t then none else some (.read a.addr (bytes a.f3))) := by
  have h1 : ∀ f : BitVec 3, sizeOf f = bytes f := by decide
  obtain ⟨hu, hm, hp⟩ := h
  rw [done_none (.inl hm), hp, ← h1]
  cases t <;> rfl

theorem reading_step {s : Sys} {a : Acc} {t : Bool} {c : Cyc} (h : Reading s a t) (k : c.kill = false)
    (hc : if t then c.rResp = none else c.rAcc = false) : Reading (step s c) a t := by
  obtain ⟨hu, hm, hp⟩ := h
  have u1 := unit_keep hu hm (.inl k)
  unfold step
  rw [u1, hp]
  cases t <;> simp_all [Port.next, Reading]

theorem reading_run {a : Acc} {t : Bool} (cs : List Cyc) : ∀ {s : Sys}, Reading s a t → (∀ c ∈ cs, c.kill = false) →
    (∀ c ∈ cs, if t then c.rResp = none else c.rAcc = false) →
    Reading (run s cs) a t ∧ (trace s cs).map (fun o => (o.done, o.req)) =
      cs.map (fun _ => (none, if t then none else some (.read a.addr (bytes a.f3)))) := by
  induction cs with
  | nil => intro s h _ _; exact ⟨h, rfl⟩
  | cons c cs ih =>
    intro s h k q
    have h' := reading_step h (k c List.mem_cons_self) (q c List.mem_cons_self)
    obtain ⟨r, e⟩ := ih h' (fun d hd => k d (List.mem_cons_of_mem _ hd)) (fun d hd => q d (List.mem_cons_of_mem _ hd))
    refine ⟨r, ?_⟩
    simp only [trace, List.map_cons, e]
    rw [reading_out h]

theorem reading_taken {s : Sys} {a : Acc} {c : Cyc} (h : Reading s a false) (k : c.kill = false) (ha : c.rAcc = true) :
    Reading (step s c) a true := by
  obtain ⟨hu, hm, hp⟩ := h
  have u1 := unit_keep hu hm (.inl k)
  unfold step
  rw [u1, hp]
  simp [Port.next, Reading, ha]

/-- From the answer on: the request is made again in the next cycle, in which the LSU does not know the answer yet. -/
theorem reading_answered {s : Sys} {a : Acc} {cr c1 : Cyc} {raw : BitVec 32} (h : Reading s a true) (ext : modeled a.addr = false)
    (hl : a.load = true) (kr : cr.kill = false) (k1 : c1.kill = false) (hr : cr.rResp = some raw) :
    (done (step s cr), (step s cr).port.req) = (none, none) ∧
    (done (step (step s cr) c1), (step (step s cr) c1).port.req) =
      (some (a, extract raw a.f3), some (.read a.addr (bytes a.f3))) := by
  have h1 : ∀ f : BitVec 3, sizeOf f = bytes f := by decide
  obtain ⟨hu, hm, hp⟩ := h
  have u1 := unit_keep hu hm (.inl kr)
  have e : step s cr = ⟨some a, ⟨true, false, 0#32⟩, ⟨false, false, false, true, a.addr, a.wdata, a.f3, extract raw a.f3⟩⟩ := by
    unfold step
    rw [u1, hp]
    simp [Port.next, hr]
  have u2 := unit_keep (s := step s cr) (a := a) (by rw [e]) (by rw [e]) (.inl k1)
  have e2 : step (step s cr) c1 =
      ⟨some a, ⟨true, true, extract raw a.f3⟩, ⟨true, false, false, false, a.addr, a.wdata, a.f3, 0#32⟩⟩ := by
    generalize step s cr = s' at e u2
    unfold step
    rw [u2, e]
    simp [Port.next, ext, hl]
  rw [e2, e, ← h1]
  exact ⟨rfl, rfl⟩

/-- The whole load. -/
theorem load_trace (s : Sys) (hf : Rel s .free) (a : Acc) (ext : modeled a.addr = false) (hl : a.load = true)
    (c0 ca cr c1 c2 : Cyc) (ws ws' : List Cyc) (raw : BitVec 32)
    (h0 : c0.start = some a) (hq : ∀ c ∈ c0 :: ws ++ ca :: ws' ++ [cr, c1], c.kill = false)
    (hw : ∀ c ∈ ws, c.rAcc = false) (ha : ca.rAcc = true) (hw' : ∀ c ∈ ws', c.rResp = none) (hr : cr.rResp = some raw) :
    (trace s (c0 :: ws ++ ca :: ws' ++ [cr, c1, c2])).map (fun o => (o.done, o.req)) =
      (none, none) :: (ws ++ [ca]).map (fun _ => (none, some (.read a.addr (bytes a.f3)))) ++
      (ws' ++ [cr, c1]).map (fun _ => (none, none)) ++
      [(some (a, extract raw a.f3), some (.read a.addr (bytes a.f3)))] := by
  obtain ⟨hu, hp, hb, hrd⟩ := hf
  have k0 : c0.kill = false := hq c0 (by simp)
  have ka : ca.kill = false := hq ca (by simp)
  have kr : cr.kill = false := hq cr (by simp)
  have k1 : c1.kill = false := hq c1 (by simp)
  -- the start
  have r0 : Reading (step s c0) a false := by
    have u1 := unit_start hu h0 (.inl k0)
    unfold step
    rw [u1, hrd]; dsimp only; rw [if_pos rfl]
    simp [Port.next, hb, ext, Reading, hp, hl]
  obtain ⟨r1, e1⟩ := reading_run ws r0 (fun c hc => hq c (by simp [hc])) (fun c hc => hw c hc)
  have r2 := reading_taken r1 ka ha
  obtain ⟨r3, e3⟩ := reading_run ws' r2 (fun c hc => hq c (by simp [hc])) (fun c hc => hw' c hc)
  obtain ⟨f1, f2⟩ := reading_answered r3 ext hl kr k1 hr
  have q1 := reading_out r1
  have q3 := reading_out r3
  have q0 : (done s, s.port.req) = (none, none) := by rw [done_none (.inr hu), req_free hb]
  simp only [List.cons_append, List.append_assoc, trace, trace_append, List.map_append, List.map_cons, List.map_nil,
    List.nil_append]
  rw [e1, e3, q0, q1, q3, f1, f2]
  rfl

end Verif.Mmio

import Verif.Proofs.FrontQueue

/-! One cycle of the front end as an operation on lists. -/
namespace Verif.Front
variable {W : Nat} {M : Type}

/-- The latched flags say what the queues hold, and the queues are within their limits. -/
structure Lat (k : Cfg) (s : St W M) : Prop where
  fetchFull : s.fetchFull = decide (k.fetchCap - 1 ≤ s.fetch.length)
  fetchEmpty : s.fetchEmpty = decide (s.fetch.length = 0)
  instFull : s.instFull = decide (s.inst.length = k.instCap)
  instEmpty : s.instEmpty = decide (s.inst.length = 0)
  ptabFull : s.ptabFull = decide (k.ptabCap - 1 ≤ s.ptab.length)
  ptabEmpty : s.ptabEmpty = decide (s.ptab.length = 0)
  f2bFull : s.f2bFull = decide (s.f2b.length = k.f2bCap)
  f2bEmpty : s.f2bEmpty = decide (s.f2b.length = 0)
  fetchLen : s.fetch.length ≤ k.fetchCap - 1
  ptabLen : s.ptab.length ≤ k.ptabCap - 1
  f2bLen : s.f2b.length ≤ k.f2bCap

/-- The next group is requested this cycle (no redirect). -/
def writes (s : St W M) : Bool := !s.fetchFull && !s.ptabFull

theorem fetchWrite_live {s : St W M} {i : Inp W M} (hr : i.reset = false) (hg : gRefetch s i = false) :
    fetchWrite s i = writes s := by
  simp [fetchWrite, bpuCanRun, hr, hg, writes]

theorem ptabWrite_live {s : St W M} {i : Inp W M} (hr : i.reset = false) (hg : gRefetch s i = false) :
    ptabWrite s i = writes s := by
  simp only [ptabWrite, goingToPred, bpuReady, bpuCanRun, hr, hg, writes]
  cases s.fetchFull <;> cases s.ptabFull <;> rfl

theorem nextPc_live (k : Cfg) {s : St W M} {i : Inp W M} (hr : i.reset = false) (hg : gRefetch s i = false) :
    nextPc k s i = if writes s then i.bpNext else s.pc := by
  simp only [nextPc, goingToPred, bpuReady, bpuCanRun, hr, hg, writes]
  by_cases h1 : s.fetchFull = true <;> by_cases h2 : s.ptabFull = true <;> simp [h1, h2]

theorem predBase_live {s : St W M} {i : Inp W M} (hg : gRefetch s i = false) : predBase s i = s.pc := by
  simp [predBase, hg]

theorem refetch_live {s : St W M} {i : Inp W M} (hg : gRefetch s i = false) : i.refetch = false := by
  revert hg; simp only [gRefetch]; cases i.refetch <;> simp

/-- The part of the cycle before the instruction cache, without reset or redirect. -/
theorem front1_live {k : Cfg} {s : St W M} {i : Inp W M} (hl : Lat k s) (hr : i.reset = false)
    (hg : gRefetch s i = false) :
    ∃ m fetch', front1 k s i = some m ∧
      m.icReq.toList ++ fetch' = s.fetch ++ (if writes s then [s.pc] else []) ∧
      fetch'.length ≤ k.fetchCap - 1 ∧
      m.fetchRd.size = fetch'.length ∧ qWrite k.fetchCap s.fetch m.fetchReq = some fetch' ∧
      m.instOut = (if instRead s i then s.inst.head? else none) ∧
      View s.inst (if instRead s i then s.inst.tail else s.inst) m.instRd m.instReq ∧
      m.ptabOut = (if instRead s i then s.ptab.head? else none) ∧
      View s.ptab (if instRead s i then s.ptab.tail else s.ptab) m.ptabRd m.ptabReq ∧
      (instRead s i = false → m.ptabRd = rdOf s.ptab ∧ m.ptabReq = {}) ∧
      m.f2bOut = (if i.readEn then s.f2b.head? else none) ∧
      View s.f2b (if i.readEn then s.f2b.tail else s.f2b) m.f2bRd m.f2bReq := by
  have hrf := refetch_live hg
  obtain ⟨fr, fq, hf, fv, fk⟩ := qRead_live k.fetchCap (fetchRead s i) s.fetch
  obtain ⟨ir, iq, hi, iv, ik⟩ := qRead_live k.instCap (instRead s i) s.inst
  obtain ⟨pr, pq, hp, pv, pk⟩ := qRead_live k.ptabCap (instRead s i) s.ptab
  obtain ⟨br, bq, hb, bv, bk⟩ := qRead_live k.f2bCap i.readEn s.f2b
  have hfr : fetchRead s i = true → s.fetch ≠ [] := by
    intro h hn
    simp [fetchRead, hl.fetchEmpty, hn] at h
  have hlen : writes s = true → s.fetch.length < k.fetchCap - 1 := by
    intro h
    simp only [writes, hl.fetchFull, Bool.and_eq_true, Bool.not_eq_true', decide_eq_false_iff_not] at h
    omega
  have htl : (if fetchRead s i then s.fetch.tail else s.fetch).length ≤ s.fetch.length := by
    split <;> simp
  by_cases hw : (writes s && !fetchByp k s i (if fetchRead s i then s.fetch.head? else none)) = true
  · have hw' : writes s = true := by revert hw; cases writes s <;> simp
    obtain ⟨r', q', hpu, hsz, hwr⟩ := qPush_live k.fetchCap fv s.pc (by have := hlen hw'; omega)
    refine ⟨_, _, by
      simp only [front1, hr, hg, hrf, hf, hi, hp, hb, fetchWrite_live hr hg, predBase_live hg, Option.bind_eq_bind,
        Option.bind_some, hw, if_true, hpu]
      rfl, ?_, ?_, hsz, hwr, rfl, iv, rfl, pv, pk, rfl, bv⟩
    · cases hfrd : fetchRead s i with
      | true =>
        cases hfe : s.fetch with
        | nil => exact absurd hfe (hfr hfrd)
        | cons a t => simp [hw']
      | false =>
        have hb' : fetchByp k s i none = false := by
          rw [hfrd] at hw; revert hw; simp [hw']
        simp [hb', hw']
    · have := hlen hw'
      simp only [List.length_append, List.length_cons, List.length_nil]
      omega
  · have hw0 : (writes s && !fetchByp k s i (if fetchRead s i then s.fetch.head? else none)) = false := by
      simpa using hw
    refine ⟨_, _, by
      simp only [front1, hr, hg, hrf, hf, hi, hp, hb, fetchWrite_live hr hg, predBase_live hg, Option.bind_eq_bind,
        Option.bind_some, hw0, if_false, Bool.false_eq_true]
      rfl, ?_, ?_, fv.size, qWrite_live k.fetchCap fv, rfl, iv, rfl, pv, pk, rfl, bv⟩
    · cases hfrd : fetchRead s i with
      | true =>
        cases hfe : s.fetch with
        | nil => exact absurd hfe (hfr hfrd)
        | cons a t =>
          have hwf : writes s = false := by
            simp only [hfrd, hfe] at hw0
            simpa [fetchByp] using hw0
          simp [hwf]
      | false =>
        simp only [Bool.false_eq_true, if_false]
        cases hws : writes s with
        | false =>
          have : fetchByp k s i none = false := by simp [fetchByp, fetchWrite_live hr hg, hws]
          simp [this]
        | true =>
          have hby : fetchByp k s i none = true := by
            simp only [hfrd, hws] at hw0
            simpa using hw0
          have hrd : i.icReady = true := by
            revert hby; simp only [fetchByp]; cases i.icReady <;> simp
          have hfe : s.fetch = [] := by
            simp [fetchRead, hrd, hr, hg, hl.fetchEmpty] at hfrd
            exact hfrd
          simp [hby, hfe]
    · have := hl.fetchLen
      omega

/-- The part of the cycle before the instruction cache, with reset or redirect. -/
theorem front1_kill {k : Cfg} {s : St W M} {i : Inp W M} (hk : (i.reset || gRefetch s i) = true) :
    ∃ m, front1 k s i = some m ∧ m.icReq = none ∧
      m.fetchRd.size = 0 ∧ m.fetchReq = { clear := true } ∧
      m.instRd.size = 0 ∧ m.instReq = { clear := true } ∧
      m.ptabRd.size = 0 ∧ m.ptabReq = { clear := true } ∧
      (i.reset = false → i.refetch = false → m.f2bOut = (if i.readEn then s.f2b.head? else none) ∧
        View s.f2b (if i.readEn then s.f2b.tail else s.f2b) m.f2bRd m.f2bReq) ∧
      ((i.reset || i.refetch) = true → m.f2bOut = none ∧ m.f2bRd.size = 0 ∧ m.f2bReq = { clear := true }) := by
  have hk' : i.reset = true ∨ gRefetch s i = true := by simpa using hk
  have hw : fetchWrite s i = false := by
    rcases hk' with h | h <;> simp [fetchWrite, h]
  have hf := qRead_clear k.fetchCap i.reset (gRefetch s i) (fetchRead s i) s.fetch hk'
  have hi := qRead_clear k.instCap i.reset (gRefetch s i) (instRead s i) s.inst hk'
  have hp := qRead_clear k.ptabCap i.reset (gRefetch s i) (instRead s i) s.ptab hk'
  by_cases hb : i.reset = true ∨ i.refetch = true
  · have hq := qRead_clear k.f2bCap i.reset i.refetch i.readEn s.f2b hb
    refine ⟨_, by
      simp only [front1, hf, hi, hp, hq, hw, Option.bind_eq_bind, Option.bind_some, Bool.false_and, if_false,
        Bool.false_eq_true]
      rfl, ?_, rfl, rfl, rfl, rfl, rfl, rfl, ?_, fun _ => ⟨rfl, rfl, rfl⟩⟩
    · simp [fetchByp, hw]
    · intro h1 h2; simp [h1, h2] at hb
  · have h1 : i.reset = false := by
      cases h : i.reset with
      | false => rfl
      | true => exact absurd (.inl h) hb
    have h2 : i.refetch = false := by
      cases h : i.refetch with
      | false => rfl
      | true => exact absurd (.inr h) hb
    obtain ⟨br, bq, hq, bv, bk⟩ := qRead_live k.f2bCap i.readEn s.f2b
    rw [h1] at hf hi hp
    refine ⟨_, by
      simp only [front1, h1, h2, hf, hi, hp, hq, hw, Option.bind_eq_bind, Option.bind_some, Bool.false_and, if_false,
        Bool.false_eq_true]
      rfl, ?_, rfl, rfl, rfl, rfl, rfl, rfl, fun _ _ => ⟨rfl, bv⟩, ?_⟩
    · simp [fetchByp, hw]
    · intro h; simp [h1, h2] at h


/-- When an address waits and the instruction cache is ready, a request is made. -/
theorem front1_req {k : Cfg} {s : St W M} {i : Inp W M} {m : Mid W M} (hr : i.reset = false)
    (hg : gRefetch s i = false) (hfr : fetchRead s i = true) (hfn : s.fetch ≠ []) (h1 : front1 k s i = some m)
    (hm : m.icReq = none) : False := by
  have hrf := refetch_live hg
  obtain ⟨fr, fq, hf, fv, fk⟩ := qRead_live k.fetchCap (fetchRead s i) s.fetch
  obtain ⟨ir, iq, hi, iv, ik⟩ := qRead_live k.instCap (instRead s i) s.inst
  obtain ⟨pr, pq, hp, pv, pk⟩ := qRead_live k.ptabCap (instRead s i) s.ptab
  obtain ⟨br, bq, hb, bv, bk⟩ := qRead_live k.f2bCap i.readEn s.f2b
  obtain ⟨a, t, he⟩ : ∃ a t, s.fetch = a :: t := by
    cases h : s.fetch with
    | nil => exact absurd h hfn
    | cons a t => exact ⟨a, t, rfl⟩
  rw [hfr, he] at hf
  simp only [if_true, List.head?_cons] at hf
  simp only [front1, hr, hg, hrf, hfr, he, hf, hi, hp, hb, Option.bind_eq_bind, Option.bind_some] at h1
  split at h1
  · rw [Option.bind_eq_some_iff] at h1
    obtain ⟨_, _, h1⟩ := h1
    cases h1
    simp at hm
  · cases h1
    simp at hm

/-- The groups of this cycle's answer. -/
def news (k : Cfg) (resp : Option (Resp W)) : List (Group W) := (resp.map (mkGroup k)).toList

/-- A group is checked this cycle. -/
def pops (k : Cfg) (s : St W M) (i : Inp W M) (resp : Option (Resp W)) : Bool := predByp k s i resp || instRead s i

theorem ptabByp_live {k : Cfg} {s : St W M} {i : Inp W M} {m : Mid W M} (resp : Option (Resp W)) (hl : Lat k s)
    (hr : i.reset = false) (hg : gRefetch s i = false)
    (ho : m.ptabOut = (if instRead s i then s.ptab.head? else none))
    (hv : View s.ptab (if instRead s i then s.ptab.tail else s.ptab) m.ptabRd m.ptabReq)
    (hk : instRead s i = false → m.ptabRd = rdOf s.ptab ∧ m.ptabReq = {}) :
    ∃ r q, ptabByp k s i m resp = some (r, q, if pops k s i resp then s.ptab.head? else none) ∧
      View s.ptab (if pops k s i resp then s.ptab.tail else s.ptab) r q := by
  cases hb : predByp k s i resp with
  | false =>
    refine ⟨m.ptabRd, m.ptabReq, ?_, ?_⟩
    · simp [ptabByp, hb, pops, ho]
    · simpa [pops, hb] using hv
  | true =>
    have h1 : s.instEmpty = true ∧ s.ptabEmpty = false := by
      revert hb; simp only [predByp]; cases s.instEmpty <;> cases s.ptabEmpty <;> simp
    have h2 : instRead s i = false := by simp [instRead, h1.1]
    cases hp : s.ptab with
    | nil => have := hl.ptabEmpty; rw [h1.2, hp] at this; simp at this
    | cons a t =>
      obtain ⟨k1, k2⟩ := hk h2
      obtain ⟨r, q, q', e1, e2, e3⟩ := qCalc_read k.ptabCap a t
      refine ⟨r, q', ?_, ?_⟩
      · simp [ptabByp, hb, pops, k1, k2, hp, hr, hg, e1, e2]
      · simpa [pops, hb] using e3

theorem instPush_live {k : Cfg} {s : St W M} {i : Inp W M} {m : Mid W M} (resp : Option (Resp W))
    (hr : i.reset = false) (hg : gRefetch s i = false)
    (hv : View s.inst (if instRead s i then s.inst.tail else s.inst) m.instRd m.instReq)
    (hlt : resp.isSome = true → s.instFull = false ∧ s.inst.length < k.instCap) (hl : Lat k s) :
    ∃ r q, instPush k s i m resp = some (r, q) ∧
      r.size = (if pops k s i resp then (s.inst ++ news k resp).tail else s.inst ++ news k resp).length ∧
      qWrite k.instCap s.inst q =
        some (if pops k s i resp then (s.inst ++ news k resp).tail else s.inst ++ news k resp) := by
  cases hb : predByp k s i resp with
  | false =>
    have hpop : pops k s i resp = instRead s i := by simp [pops, hb]
    have htl : (if instRead s i then s.inst.tail else s.inst) ++ news k resp =
        if instRead s i then (s.inst ++ news k resp).tail else s.inst ++ news k resp := by
      cases hi : instRead s i with
      | false => simp
      | true =>
        cases hin : s.inst with
        | nil => simp [instRead, hl.instEmpty, hin] at hi
        | cons a t => simp
    cases resp with
    | none =>
      refine ⟨m.instRd, m.instReq, by simp [instPush], ?_, ?_⟩
      · rw [hpop, ← htl, hv.size]; simp [news]
      · rw [hpop, ← htl, qWrite_live k.instCap hv]; simp [news]
    | some r =>
      obtain ⟨h1, h2⟩ := hlt rfl
      obtain ⟨r', q', e1, e2, e3⟩ := qPush_live k.instCap hv (mkGroup k r) h2
      refine ⟨r', q', by simp [instPush, hb, h1, hr, hg, e1], ?_, ?_⟩
      · rw [hpop, ← htl, e2]; simp [news]
      · rw [hpop, ← htl, e3]; simp [news]
  | true =>
    have h1 : s.instEmpty = true ∧ resp.isSome = true := by
      revert hb; simp only [predByp]; cases s.instEmpty <;> cases resp <;> simp
    have h2 : instRead s i = false := by simp [instRead, h1.1]
    have h3 : s.inst = [] := by
      have := hl.instEmpty
      rw [h1.1] at this
      simpa using this
    obtain ⟨_, rr⟩ := h1
    cases resp with
    | none => simp at rr
    | some r =>
      refine ⟨m.instRd, m.instReq, by simp [instPush, hb], ?_, ?_⟩
      · rw [hv.size]; simp [pops, hb, h2, h3, news]
      · rw [qWrite_live k.instCap hv]; simp [pops, hb, h2, h3, news]

theorem check_live {k : Cfg} {s : St W M} {i : Inp W M} {m : Mid W M} {g : Group W} {p : Pred W M} (hl : Lat k s)
    (hr : i.reset = false) (hrf : i.refetch = false) (hfull : s.f2bFull = false)
    (ho : m.f2bOut = (if i.readEn then s.f2b.head? else none))
    (hv : View s.f2b (if i.readEn then s.f2b.tail else s.f2b) m.f2bRd m.f2bReq)
    (hm : ∀ j, g.pc j = p.base j) :
    ∃ r q byo, check k s i m (some g) (some p) =
        some (r, q, byo, if p.next ≠ (mkOut g p).next then some (mkOut g p).next else none) ∧
      r.size = (if i.readEn then (s.f2b ++ [mkOut g p]).tail else s.f2b ++ [mkOut g p]).length ∧
      qWrite k.f2bCap s.f2b q = some (if i.readEn then (s.f2b ++ [mkOut g p]).tail else s.f2b ++ [mkOut g p]) ∧
      (match m.f2bOut with | some o => some o | none => byo) =
        (if i.readEn then (s.f2b ++ [mkOut g p]).head? else none) := by
  have hlt : s.f2b.length < k.f2bCap := by
    have h1 := hl.f2bFull
    rw [hfull] at h1
    have h2 : s.f2b.length ≠ k.f2bCap := by simpa using h1.symm
    have := hl.f2bLen
    omega
  cases he : i.readEn with
  | false =>
    rw [he] at ho hv
    obtain ⟨r, q, e1, e2, e3⟩ := qPush_live k.f2bCap hv (mkOut g p) hlt
    refine ⟨r, q, none, ?_, ?_, ?_, ?_⟩
    · simp [check, hm, he, hfull, hr, hrf, e1]
    · simpa using e2
    · simpa using e3
    · simp [ho]
  | true =>
    rw [he] at ho hv
    cases hb : s.f2b with
    | nil =>
      have hem : s.f2bEmpty = true := by rw [hl.f2bEmpty, hb]; rfl
      rw [hb] at ho
      refine ⟨m.f2bRd, m.f2bReq, some (mkOut g p), ?_, ?_, ?_, ?_⟩
      · simp [check, hm, he, hfull, hr, hem, ho]
      · rw [hv.size, hb]; simp
      · have := qWrite_live k.f2bCap hv
        rw [hb] at this
        rw [this]; simp
      · simp [ho]
    | cons a t =>
      have hem : s.f2bEmpty = false := by rw [hl.f2bEmpty, hb]; rfl
      rw [hb] at ho
      obtain ⟨r, q, e1, e2, e3⟩ := qPush_live k.f2bCap hv (mkOut g p) hlt
      rw [hb] at e2 e3
      refine ⟨r, q, none, ?_, ?_, ?_, ?_⟩
      · simp [check, hm, he, hfull, hr, hrf, hem, e1]
      · simpa using e2
      · simpa using e3
      · simp [ho]

/-- One cycle without reset or redirect, as an operation on lists. -/
structure Live (k : Cfg) (s : St W M) (i : Inp W M) (resp : Option (Resp W)) (s' : St W M) (o : Obs W M) : Prop where
  lat : Lat k s'
  pc : s'.pc = if writes s then i.bpNext else s.pc
  inval : o.inval = s'.preRefetch.isSome
  act : (pops k s i resp = false ∧ s'.inst = s.inst ++ news k resp ∧ s'.ptab = s.ptab ++ (if writes s then [newPred s i] else []) ∧
          s'.preRefetch = none ∧ o.out = (if i.readEn then s.f2b.head? else none) ∧
          s'.f2b = (if i.readEn then s.f2b.tail else s.f2b)) ∨
        (∃ g p P, pops k s i resp = true ∧ s.inst ++ news k resp = g :: s'.inst ∧ s.ptab = p :: P ∧
          s'.ptab = P ++ (if writes s then [newPred s i] else []) ∧
          s'.preRefetch = (if p.next ≠ (mkOut g p).next then some (mkOut g p).next else none) ∧
          o.out = (if i.readEn then (s.f2b ++ [mkOut g p]).head? else none) ∧
          s'.f2b = (if i.readEn then (s.f2b ++ [mkOut g p]).tail else s.f2b ++ [mkOut g p]))

theorem cycle_live {k : Cfg} {s : St W M} {i : Inp W M} (hl : Lat k s) (hr : i.reset = false)
    (hg : gRefetch s i = false) :
    ∃ m fetch', front1 k s i = some m ∧
      m.icReq.toList ++ fetch' = s.fetch ++ (if writes s then [s.pc] else []) ∧
      ∀ resp : Option (Resp W),
        (resp.isSome = true → s.inst.length < k.instCap) →
        (∀ g p, (s.inst ++ news k resp).head? = some g → s.ptab.head? = some p → ∀ j, g.pc j = p.base j) →
        ∃ s' o, front2 k s i m resp = some (s', o) ∧ s'.fetch = fetch' ∧ Live k s i resp s' o := by
  have hrf := refetch_live hg
  obtain ⟨m, fetch', h1, h2, hfl, h3, h4, h5, h6, h7, h8, h9, h10, h11⟩ := front1_live hl hr hg
  refine ⟨m, fetch', h1, h2, fun resp hlt hmatch => ?_⟩
  have hlt' : resp.isSome = true → s.instFull = false ∧ s.inst.length < k.instCap := by
    intro h
    have := hlt h
    refine ⟨?_, this⟩
    rw [hl.instFull]; simp; omega
  obtain ⟨pr, pq, p1, p2⟩ := ptabByp_live resp hl hr hg h7 h8 h9
  obtain ⟨ir, iq, i1, i2, i3⟩ := instPush_live resp hr hg h6 hlt' hl
  have hpl : writes s = true → s.ptab.length < k.ptabCap - 1 := by
    intro h
    simp only [writes, hl.ptabFull, Bool.and_eq_true, Bool.not_eq_true', decide_eq_false_iff_not] at h
    omega
  have hpush : ∃ pr' pq', ptabPush k s i pr pq = some (pr', pq') ∧
      pr'.size = ((if pops k s i resp then s.ptab.tail else s.ptab) ++
        (if writes s then [newPred s i] else [])).length ∧
      qWrite k.ptabCap s.ptab pq' = some ((if pops k s i resp then s.ptab.tail else s.ptab) ++
        (if writes s then [newPred s i] else [])) := by
    rw [ptabPush, ptabWrite_live hr hg, hr, hg]
    cases hw : writes s with
    | false =>
      refine ⟨pr, pq, by simp, ?_, ?_⟩
      · rw [p2.size]; simp
      · rw [qWrite_live k.ptabCap p2]; simp
    | true =>
      obtain ⟨r', q', e1, e2, e3⟩ := qPush_live k.ptabCap p2 (newPred s i) (by have := hpl hw; omega)
      exact ⟨r', q', by simpa using e1, by simpa using e2, by simpa using e3⟩
  obtain ⟨pr', pq', q1, q2, q3⟩ := hpush
  have hpt : ((if pops k s i resp then s.ptab.tail else s.ptab) ++
        (if writes s then [newPred s i] else [])).length ≤ k.ptabCap - 1 := by
    have ht : (if pops k s i resp then s.ptab.tail else s.ptab).length ≤ s.ptab.length := by split <;> simp
    have := hl.ptabLen
    cases hw : writes s with
    | false => simp only [List.length_append, Bool.false_eq_true, if_false, List.length_nil]; omega
    | true =>
      have := hpl hw
      simp only [List.length_append, if_true, List.length_cons, List.length_nil]; omega
  cases hpop : pops k s i resp with
  | false =>
    rw [hpop] at p1 i2 i3 q2 q3 hpt
    simp only [Bool.false_eq_true, if_false] at p1 i2 i3 q2 q3 hpt
    have hpop' : (predByp k s i resp || instRead s i) = false := hpop
    have hf2 : (if i.readEn = true then s.f2b.tail else s.f2b).length ≤ k.f2bCap := by
      have := hl.f2bLen
      split <;> simp <;> omega
    refine ⟨_, _, by
      simp only [front2, p1, i1, q1, hpop', h4, i3, q3, qWrite_live k.f2bCap h11, Option.bind_eq_bind,
        Option.bind_some, Bool.false_eq_true, if_false]
      rfl, rfl, ⟨?_, ?_, rfl, .inl ⟨hpop, rfl, rfl, rfl, ?_, rfl⟩⟩⟩
    · constructor <;> simp only [h3, i2, q2, h11.size]
      · exact hfl
      · exact hpt
      · exact hf2
    · exact nextPc_live k hr hg
    · simp only [h10]; split <;> simp_all
  | true =>
    rw [hpop] at p1 i2 i3 q2 q3 hpt
    simp only [if_true] at p1 i2 i3 q2 q3 hpt
    have hpop' : (predByp k s i resp || instRead s i) = true := hpop
    have hfull : s.f2bFull = false ∧ s.ptabEmpty = false := by
      revert hpop'
      simp only [predByp, instRead]
      cases s.f2bFull <;> cases s.ptabEmpty <;> simp
    obtain ⟨p, P, hp⟩ : ∃ p P, s.ptab = p :: P := by
      cases hp : s.ptab with
      | nil => have := hl.ptabEmpty; rw [hfull.2, hp] at this; simp at this
      | cons a t => exact ⟨a, t, rfl⟩
    have hsrc : ∃ g, (if predByp k s i resp then resp.map (mkGroup k) else m.instOut) = some g ∧
        (s.inst ++ news k resp).head? = some g := by
      cases hb : predByp k s i resp with
      | true =>
        have hb' : s.instEmpty = true ∧ resp.isSome = true := by
          revert hb; simp only [predByp]; cases s.instEmpty <;> cases resp <;> simp
        have h3 : s.inst = [] := by
          have := hl.instEmpty
          rw [hb'.1] at this
          simpa using this
        obtain ⟨_, rr⟩ := hb'
        cases resp with
        | none => simp at rr
        | some r => exact ⟨_, rfl, by simp [h3, news]⟩
      | false =>
        have hi : instRead s i = true := by rw [hb] at hpop'; simpa using hpop'
        cases hin : s.inst with
        | nil => simp [instRead, hl.instEmpty, hin] at hi
        | cons a t => exact ⟨a, by simp [h5, hi, hin], by simp⟩
    obtain ⟨g, hg1, hg2⟩ := hsrc
    have hG : s.inst ++ news k resp = g :: (s.inst ++ news k resp).tail := by
      revert hg2
      cases s.inst ++ news k resp with
      | nil => simp
      | cons a t => simp +contextual
    obtain ⟨br, bq, byo, c1, c2, c3, c4⟩ := check_live (g := g) (p := p) hl hr hrf hfull.1 h10 h11
      (hmatch g p hg2 (by simp [hp]))
    have hf2 : (if i.readEn = true then (s.f2b ++ [mkOut g p]).tail else s.f2b ++ [mkOut g p]).length ≤ k.f2bCap := by
      have h1 := hl.f2bFull
      rw [hfull.1] at h1
      have h2 : s.f2b.length ≠ k.f2bCap := by simpa using h1.symm
      have := hl.f2bLen
      split <;> simp <;> omega
    rw [hp] at p1
    simp only [List.head?_cons] at p1
    refine ⟨_, _, by
      simp only [front2, p1, i1, q1, hpop', hg1, c1, h4, i3, q3, c3, Option.bind_eq_bind,
        Option.bind_some, if_true]
      rfl, rfl, ⟨?_, ?_, rfl, .inr ⟨g, p, P, hpop, hG, hp, ?_, rfl, ?_, rfl⟩⟩⟩
    · constructor <;> simp only [h3, i2, q2, c2]
      · exact hfl
      · exact hpt
      · exact hf2
    · exact nextPc_live k hr hg
    · simp [hp]
    · exact c4

/-- One cycle with a reset or a redirect. -/
theorem cycle_kill {k : Cfg} {s : St W M} {i : Inp W M} (hl : Lat k s) (hk : (i.reset || gRefetch s i) = true) :
    ∃ m, front1 k s i = some m ∧ m.icReq = none ∧
      ∀ resp : Option (Resp W), resp = none →
        ∃ s' o, front2 k s i m resp = some (s', o) ∧ Lat k s' ∧ s'.fetch = [] ∧ s'.inst = [] ∧ s'.ptab = [] ∧
          s'.preRefetch = none ∧ o.inval = false ∧
          s'.pc = (if i.reset then k.resetPc else gAddr s i) ∧
          o.out = (if !i.reset && !i.refetch && i.readEn then s.f2b.head? else none) ∧
          s'.f2b = (if i.reset || i.refetch then [] else if i.readEn then s.f2b.tail else s.f2b) := by
  obtain ⟨m, h1, h2, h3, h4, h5, h6, h7, h8, h9, h10⟩ := front1_kill (k := k) hk
  refine ⟨m, h1, h2, ?_⟩
  rintro resp rfl
  have hk' : i.reset = true ∨ gRefetch s i = true := by simpa using hk
  have hpw : ptabWrite s i = false := by rcases hk' with h | h <;> simp [ptabWrite, h]
  have hb : predByp k s i none = false := by simp [predByp]
  have hi : instRead s i = false := by rcases hk' with h | h <;> simp [instRead, h]
  have hpc : nextPc k s i = if i.reset then k.resetPc else gAddr s i := by
    rcases hk' with h | h
    · simp [nextPc, h]
    · simp only [nextPc, h, if_true]
  by_cases hc : (i.reset || i.refetch) = true
  · obtain ⟨b1, b2, b3⟩ := h10 hc
    refine ⟨_, _, by
      simp only [front2, ptabByp, instPush, ptabPush, hb, hi, hpw, h4, h6, h8, b3, qWrite_clear, Option.bind_eq_bind,
        Option.bind_some, Bool.false_eq_true, if_false, Bool.or_false]
      rfl, ?_, rfl, rfl, rfl, rfl, rfl, hpc, ?_, ?_⟩
    · constructor <;> simp [h3, h5, h7, b2]
    · have : (!i.reset && !i.refetch && i.readEn) = false := by
        revert hc; cases i.reset <;> cases i.refetch <;> simp
      simp [b1, this]
    · simp only [hc, if_true]
  · have hc1 : i.reset = false ∧ i.refetch = false := by
      revert hc; cases i.reset <;> cases i.refetch <;> simp
    obtain ⟨b1, b2⟩ := h9 hc1.1 hc1.2
    refine ⟨_, _, by
      simp only [front2, ptabByp, instPush, ptabPush, hb, hi, hpw, h4, h6, h8, qWrite_clear, qWrite_live k.f2bCap b2,
        Option.bind_eq_bind, Option.bind_some, Bool.false_eq_true, if_false, Bool.or_false]
      rfl, ?_, rfl, rfl, rfl, rfl, rfl, hpc, ?_, ?_⟩
    · have := hl.f2bLen
      constructor <;> simp only [h3, h5, h7, b2.size, List.length_nil]
      · omega
      · omega
      · split <;> (try simp) <;> omega
    · simp only [b1, hc1.1, hc1.2, Bool.not_false, Bool.true_and]; split <;> simp_all
    · simp [hc1.1, hc1.2]

end Verif.Front

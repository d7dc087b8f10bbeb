import Verif.Proofs.DcacheKeep

/-
The interconnect side of the data cache keeps the invariant and the contents of every line.
-/
namespace Verif.Dcache

/-- The invariant and the contents are the same as before. -/
structure Keeps (s s' : Sys) : Prop where
  inv : Inv s'
  view : ∀ X, lineOf X = X → s'.d.view s'.mem X = s.d.view s.mem X
  pl : s'.d.pendLd = s.d.pendLd
  ps : s'.d.pendSt = s.d.pendSt
  ld : s'.d.loads = s.d.loads
  st : s'.d.stores = s.d.stores

theorem Keeps.trans {a b c : Sys} (h : Keeps a b) (h' : Keeps b c) : Keeps a c :=
  ⟨h'.inv, fun X hX => (h'.view X hX).trans (h.view X hX), h'.pl.trans h.pl, h'.ps.trans h.ps, h'.ld.trans h.ld, h'.st.trans h.st⟩

theorem findIn_head {b : Wb} {X : BitVec 32} (hc : 0 < b.count) (ha : (b.at 0).addr = X) : (b.line X).isSome = true := by
  unfold Wb.line
  cases e : b.findIn X b.count with
  | none => exact absurd ha (findIn_none e 0 hc)
  | some c => rfl

/-- A line in the write buffer is not an outstanding miss. -/
theorem wb_not_miss {s : Sys} (h : Inv s) {X : BitVec 32} {l : Line} (hl : s.d.wb.line X = some l) : s.d.m.find X = none := by
  cases e : s.d.m.find X with
  | none => rfl
  | some i => rw [h.ex.mw X i e] at hl; cases hl

theorem wb_view {s : Sys} (h : Inv s) {X : BitVec 32} {l : Line} (hl : s.d.wb.line X = some l) (hX : lineOf X = X) (b : Wb) (hb : b.line X = none)
    (hm : s.mem X = l) : ({ s.d with wb := b } : State).view s.mem X = s.d.view s.mem X := by
  rw [view_wb h hX hl]
  have hk : hitWay s.d.arr (setOf X) (tagOf X) = none := by
    cases e : hitWay s.d.arr (setOf X) (tagOf X) with
    | none => rfl
    | some k => have := (h.ex.cw X k e).1; rw [hX, hl] at this; cases this
  unfold State.view
  dsimp only
  rw [hk, hb]
  have hmv := mview_none (wb_not_miss h hl) (s.mem X)
  rw [hmv, hm]
  dsimp only
  cases hf : s.d.fill with
  | none => rfl
  | some f =>
    dsimp only
    rw [if_neg]
    intro hc
    have hh := fill_hold h hf
    rw [hc] at hh
    rw [(hold_out h hh).2] at hl; cases hl

/-- Hand-over and completion of a write. -/
theorem axi_wb {s : Sys} (h : Inv s) (ack : Bool) (hv : ack = true → ∃ w, s.wr = some w ∧ w.done = true) :
    ∃ b, s.d.wb.axi (match s.wr with | some w => !w.acked | none => false) ack = some b ∧
      Keeps s { s with d := { s.d with wb := b }, wr := s.wrAfter ack } ∧ ∀ w, s.wrAfter ack = some w → w.acked = true := by
  have hack : ∀ w, s.wrAfter ack = some w → w.acked = true := by
    intro w hw
    unfold Sys.wrAfter at hw
    split at hw
    · cases hw
    · obtain ⟨w0, _, rfl⟩ := Option.map_eq_some_iff.mp hw; rfl
  cases ack with
  | false =>
    refine ⟨if (match s.wr with | some w => !w.acked | none => false) = true then { s.d.wb with send := true } else s.d.wb, rfl, ?_, hack⟩
    generalize hacc : (match s.wr with | some w => !w.acked | none => false) = acc
    have hL : ∀ X, (if acc = true then { s.d.wb with send := true } else s.d.wb).line X = s.d.wb.line X := by
      intro X; cases acc
      · rfl
      · show Wb.line { s.d.wb with send := true } X = _
        unfold Wb.line
        rw [findIn_congr (b := s.d.wb) (b' := { s.d.wb with send := true }) X (fun _ => rfl)]
        rfl
    have hH : (if acc = true then { s.d.wb with send := true } else s.d.wb).head = s.d.wb.head := by cases acc <;> rfl
    have hC : (if acc = true then { s.d.wb with send := true } else s.d.wb).count = s.d.wb.count := by cases acc <;> rfl
    have hA : ∀ c, (if acc = true then { s.d.wb with send := true } else s.d.wb).at c = s.d.wb.at c := by intro c; cases acc <;> rfl
    refine ⟨?_, ?_, rfl, rfl, rfl, rfl⟩
    · constructor
      case ex =>
        constructor
        case arr => exact h.ex.arr
        case m => exact h.ex.m
        case hold => exact h.ex.hold
        case wbc => dsimp only; rw [hC]; exact h.ex.wbc
        case cw => intro X k hX; dsimp only; rw [hL]; exact h.ex.cw X k hX
        case mw => intro X i hX; dsimp only; rw [hL]; exact h.ex.mw X i hX
      case head => dsimp only; rw [hH]; exact h.head
      case al => intro c hc; dsimp only at hc ⊢; rw [hC] at hc; rw [hA]; exact h.al c hc
      case wr =>
        intro w hw
        obtain ⟨w0, hw0, rfl⟩ := Option.map_eq_some_iff.mp (show s.wr.map (fun w => ({ w with acked := true } : Wr)) = some w from hw)
        obtain ⟨g1, g2, g3, g4, g5⟩ := h.wr w0 hw0
        dsimp only
        rw [hC, hA]
        refine ⟨g1, g2, g3, ?_, g5⟩
        rw [hw0] at hacc
        dsimp only at hacc
        cases acc with
        | true => rfl
        | false =>
          show true = s.d.wb.send
          rw [← g4]
          cases e : w0.acked with
          | true => rfl
          | false => rw [e] at hacc; cases hacc
      case idle =>
        intro hw
        have hw' : s.wr = none := by
          have : s.wr.map (fun w => ({ w with acked := true } : Wr)) = none := hw
          cases e : s.wr with
          | none => rfl
          | some _ => rw [e] at this; cases this
        rw [hw'] at hacc
        dsimp only at hacc
        subst hacc
        exact h.idle hw'
      case rd => exact h.rd
      case rd1 => exact h.rd1
      case hold => exact h.hold
      case clean => exact h.clean
      case fill => exact h.fill
      case pend => exact h.pend
      case pst => exact h.pst
    · intro X hX
      unfold State.view
      dsimp only
      rw [hL]
  | true =>
    obtain ⟨w, hw, hd⟩ := hv rfl
    obtain ⟨g1, g2, g3, g4, g5⟩ := h.wr w hw
    generalize hacc : (match s.wr with | some w => !w.acked | none => false) = acc
    have hpop : s.d.wb.axi acc true = some { s.d.wb with count := s.d.wb.count - 1, head := (s.d.wb.head + 1) % wbN, send := false } := by
      unfold Wb.axi
      cases acc <;> (dsimp only; rw [if_pos rfl]; exact if_pos g1)
    refine ⟨_, hpop, ?_, hack⟩
    have hL := fun X => pop_line (b := s.d.wb) X g1 h.ex.wbc false
    have hnone : ∀ X, s.d.wb.line X = none → Wb.line { s.d.wb with count := s.d.wb.count - 1, head := (s.d.wb.head + 1) % wbN, send := false } X = none := by
      intro X hX; rw [hL]; split
      · rfl
      · exact hX
    refine ⟨?_, ?_, rfl, rfl, rfl, rfl⟩
    · constructor
      case ex =>
        constructor
        case arr => exact h.ex.arr
        case m => exact h.ex.m
        case hold => exact h.ex.hold
        case wbc => show s.d.wb.count - 1 ≤ wbN; have := h.ex.wbc; omega
        case cw => intro X k hX; exact ⟨hnone _ (h.ex.cw X k hX).1, (h.ex.cw X k hX).2⟩
        case mw => intro X i hX; exact hnone _ (h.ex.mw X i hX)
      case head => exact Nat.mod_lt _ (by decide)
      case al =>
        intro c hc
        have hc' : c < s.d.wb.count - 1 := hc
        have e : Wb.at { s.d.wb with count := s.d.wb.count - 1, head := (s.d.wb.head + 1) % wbN, send := false } c = s.d.wb.at (c + 1) := by
          unfold Wb.at
          dsimp only
          rw [Nat.mod_add_mod, Nat.add_assoc, Nat.add_comm 1 c]
        dsimp only
        rw [e]
        exact h.al (c + 1) (by omega)
      case wr => intro w' hw'; cases hw'
      case idle => intro _; rfl
      case rd => exact h.rd
      case rd1 => exact h.rd1
      case hold => exact h.hold
      case clean => exact h.clean
      case fill => exact h.fill
      case pend => exact h.pend
      case pst => exact h.pst
    · intro X hX
      by_cases hf : s.d.wb.findIn X s.d.wb.count = some 0
      · have hl : s.d.wb.line X = some w.data := by unfold Wb.line; rw [hf, g3]; rfl
        have hx : w.addr = X := by rw [g2]; exact (findIn_some hf).2.1
        exact wb_view h hl hX _ (by rw [hL, if_pos hf]) (by rw [← hx]; exact g5 hd)
      · unfold State.view
        dsimp only
        rw [hL, if_neg hf]

theorem mview_congr {m m' : Mshr} (hf : ∀ X, m'.find X = m.find X) (ho : ∀ i l, (m'.ent i).over l = (m.ent i).over l) (X : BitVec 32) (l : Line) :
    m'.view X l = m.view X l := by
  unfold Mshr.view
  rw [hf]
  cases m.find X with
  | none => rfl
  | some i => exact ho i l

/-- Marking an entry as issued. -/
theorem issue_find (m : Mshr) (i : Nat) (X : BitVec 32) :
    Mshr.find { m with ent := upd m.ent i { m.ent i with issued := true } } X = m.find X := by
  have hv : ∀ j, (upd m.ent i { m.ent i with issued := true } j).valid = (m.ent j).valid := by
    intro j; unfold upd; split
    · next e => rw [e]
    · rfl
  have ha : ∀ j, (upd m.ent i { m.ent i with issued := true } j).addr = (m.ent j).addr := by
    intro j; unfold upd; split
    · next e => rw [e]
    · rfl
  unfold Mshr.find
  dsimp only
  congr 1
  funext j
  rw [hv, ha]

theorem issue_inv {m : Mshr} (hm : MInv m) (i : Nat) : MInv { m with ent := upd m.ent i { m.ent i with issued := true } } := by
  have hv : ∀ j, (upd m.ent i { m.ent i with issued := true } j).valid = (m.ent j).valid := by
    intro j; unfold upd; split
    · next e => rw [e]
    · rfl
  have ha : ∀ j, (upd m.ent i { m.ent i with issued := true } j).addr = (m.ent j).addr := by
    intro j; unfold upd; split
    · next e => rw [e]
    · rfl
  have hd : ∀ j, (upd m.ent i { m.ent i with issued := true } j).dirty = (m.ent j).dirty := by
    intro j; unfold upd; split
    · next e => rw [e]
    · rfl
  have hs : ∀ j, (upd m.ent i { m.ent i with issued := true } j).strb = (m.ent j).strb := by
    intro j; unfold upd; split
    · next e => rw [e]
    · rfl
  constructor
  · intro j hj hv'; dsimp only at hv' ⊢; rw [ha]; rw [hv] at hv'; exact hm.al j hj hv'
  · intro j k hj hk h1 h2 h3
    dsimp only at h1 h2 h3
    rw [hv] at h1 h2
    rw [ha, ha] at h3
    exact hm.dist j k hj hk h1 h2 h3
  · dsimp only; rw [hm.cnt]; congr 1; funext j; rw [hv]
  · intro j hj h1 h2
    dsimp only at h1 h2 ⊢
    rw [hv] at h1
    rw [hd] at h2
    rw [hs]; exact hm.clean j hj h1 h2

/-- The entry found to be accepted. -/
def Sys.fresh (s : Sys) : Option Nat := (List.range mshrN).find? fun i => match s.rd i with | some r => !r.acked | none => false

/-- The interconnect after the cycle's acknowledgements. -/
def ackAll (rd : Nat → Option Rd) : Nat → Option Rd := fun i => (rd i).map fun r => { r with acked := true }

/-- Hand-over of a read. -/
theorem axi_acc {s : Sys} (h : Inv s) : ∃ m, s.d.m.accepted s.fresh = some m ∧
    Keeps s { s with d := { s.d with m := m }, rd := ackAll s.rd } := by
  -- every outstanding read is either known to the cache or the one handed over
  have hfr : ∀ i r, s.rd i = some r → r.acked = false → s.fresh = some i := by
    intro i r hr ha
    unfold Sys.fresh
    cases e : (List.range mshrN).find? fun i => match s.rd i with | some r => !r.acked | none => false with
    | none =>
      rw [List.find?_eq_none] at e
      have := e i (List.mem_range.mpr (h.rd i r hr).1)
      rw [hr] at this
      dsimp only at this
      rw [ha] at this
      exact absurd rfl this
    | some j =>
      have := List.find?_some e
      cases hj : s.rd j with
      | none => rw [hj] at this; cases this
      | some r' =>
        rw [hj] at this
        dsimp only at this
        rw [h.rd1 i j r r' hr hj ha (by simpa using this)]
  have hfs : ∀ i, s.fresh = some i → i < mshrN ∧ ∃ r, s.rd i = some r ∧ r.acked = false := by
    intro i hi
    unfold Sys.fresh at hi
    have h1 := List.mem_range.mp (List.mem_of_find?_eq_some hi)
    have h2 := List.find?_some hi
    refine ⟨h1, ?_⟩
    cases hj : s.rd i with
    | none => rw [hj] at h2; cases h2
    | some r => rw [hj] at h2; exact ⟨r, rfl, by simpa using h2⟩
  -- the general argument
  have gen : ∀ m : Mshr, m.hold = s.d.m.hold → MInv m → (∀ X, m.find X = s.d.m.find X) → (∀ i l, (m.ent i).over l = (s.d.m.ent i).over l) →
      (∀ i, (m.ent i).valid = (s.d.m.ent i).valid) → (∀ i, (m.ent i).addr = (s.d.m.ent i).addr) → (∀ i, (m.ent i).dirty = (s.d.m.ent i).dirty) →
      (∀ i, (s.d.m.ent i).issued = true → (m.ent i).issued = true) → (∀ i r, s.rd i = some r → (m.ent i).issued = true) →
      Keeps s { s with d := { s.d with m := m }, rd := ackAll s.rd } := by
    intro m m1 m2 m3 m4 m5 m6 m7 m8 m9
    refine ⟨?_, ?_, rfl, rfl, rfl, rfl⟩
    · constructor
      case ex =>
        constructor
        case arr => exact h.ex.arr
        case m => exact m2
        case hold =>
          intro i l hi
          dsimp only at hi ⊢
          rw [m1] at hi
          obtain ⟨g1, g2, g3⟩ := h.ex.hold i l hi
          exact ⟨g1, by rw [m5]; exact g2, m8 i g3⟩
        case wbc => exact h.ex.wbc
        case cw => intro X k hX; dsimp only; rw [m3]; exact h.ex.cw X k hX
        case mw => intro X i hX; dsimp only at hX ⊢; rw [m3] at hX; exact h.ex.mw X i hX
      case head => exact h.head
      case al => exact h.al
      case wr => exact h.wr
      case idle => exact h.idle
      case rd =>
        intro i r hr
        obtain ⟨r0, hr0, rfl⟩ := Option.map_eq_some_iff.mp (show (s.rd i).map (fun r => ({ r with acked := true } : Rd)) = some r from hr)
        obtain ⟨g1, g2, g3, g4, g5, g6⟩ := h.rd i r0 hr0
        dsimp only
        rw [m5, m6, m9 i r0 hr0, m1]
        exact ⟨g1, g2, g3, rfl, g5, g6⟩
      case rd1 =>
        intro i j r r' hr _ ha _
        obtain ⟨r0, _, rfl⟩ := Option.map_eq_some_iff.mp (show (s.rd i).map (fun r => ({ r with acked := true } : Rd)) = some r from hr)
        cases ha
      case hold => intro i l hi; dsimp only at hi ⊢; rw [m1] at hi; rw [m6]; exact h.hold i l hi
      case clean => exact h.clean
      case fill =>
        intro f hf
        obtain ⟨l, f1, f2, f3, f4⟩ := h.fill f hf
        dsimp only
        rw [m1, m6, m7]
        refine ⟨l, f1, f2, ?_, f4⟩
        intro ht
        rw [m4]; exact f3 ht
      case pend => exact h.pend
      case pst => exact h.pst
    · intro X hX
      unfold State.view
      dsimp only
      rw [mview_congr m3 m4]
  cases hf : s.fresh with
  | none =>
    refine ⟨s.d.m, rfl, gen s.d.m rfl h.ex.m (fun _ => rfl) (fun _ _ => rfl) (fun _ => rfl) (fun _ => rfl) (fun _ => rfl) (fun _ hi => hi) ?_⟩
    intro i r hr
    rw [← (h.rd i r hr).2.2.2.1]
    cases e : r.acked with
    | true => rfl
    | false => have := hfr i r hr e; rw [hf] at this; cases this
  | some i =>
    obtain ⟨hi, r, hr, ha⟩ := hfs i hf
    obtain ⟨g1, g2, g3, g4, _⟩ := h.rd i r hr
    refine ⟨{ s.d.m with ent := upd s.d.m.ent i { s.d.m.ent i with issued := true } }, ?_, ?_⟩
    · unfold Mshr.accepted
      dsimp only
      rw [if_pos hi, if_pos ⟨g2, by rw [← g4]; exact ha⟩]
    · have key : ∀ j, upd s.d.m.ent i { s.d.m.ent i with issued := true } j = if j = i then { s.d.m.ent i with issued := true } else s.d.m.ent j := fun j => rfl
      apply gen
      · rfl
      · exact issue_inv h.ex.m i
      · exact fun X => issue_find s.d.m i X
      · intro j l; dsimp only; rw [key]; split
        · next e => rw [e]; rfl
        · rfl
      · intro j; dsimp only; rw [key]; split
        · next e => rw [e]
        · rfl
      · intro j; dsimp only; rw [key]; split
        · next e => rw [e]
        · rfl
      · intro j; dsimp only; rw [key]; split
        · next e => rw [e]
        · rfl
      · intro j hj; dsimp only; rw [key]; split
        · rfl
        · exact hj
      · intro j r' hr'
        dsimp only; rw [key]; split
        · rfl
        · next e =>
          rw [← (h.rd j r' hr').2.2.2.1]
          cases e2 : r'.acked with
          | true => rfl
          | false =>
            have := hfr j r' hr' e2
            rw [hf] at this
            injection this with this
            exact absurd this.symm e

/-- Delivery of a read. -/
theorem axi_resp {s : Sys} (h : Inv s) (hall : ∀ i r, s.rd i = some r → r.acked = true) (resp : Option Nat)
    (hv : ∀ i, resp = some i → ∃ r l, s.rd i = some r ∧ r.data = some l) :
    ∃ m tk, s.d.m.response (resp.bind fun i => (s.rd i).bind fun r => r.data.map fun l => (i, l)) = (m, tk) ∧
      Keeps s { s with d := { s.d with m := m }, rd := fun i => if tk = true ∧ resp = some i then none else s.rd i } := by
  have idle : Keeps s { s with d := { s.d with m := s.d.m }, rd := fun i => if false = true ∧ resp = some i then none else s.rd i } := by
    have e : ({ s with d := { s.d with m := s.d.m }, rd := fun i => if false = true ∧ resp = some i then none else s.rd i } : Sys) = s := by
      have : (fun i => if false = true ∧ resp = some i then none else s.rd i) = s.rd := by funext i; rw [if_neg]; simp
      rw [this]
    rw [e]
    exact ⟨h, fun _ _ => rfl, rfl, rfl, rfl, rfl⟩
  cases hr : resp with
  | none =>
    refine ⟨s.d.m, false, ?_, by rw [hr] at idle; exact idle⟩
    unfold Mshr.response
    cases s.d.m.hold <;> rfl
  | some i =>
    obtain ⟨r, l, hri, hrl⟩ := hv i hr
    obtain ⟨g1, g2, g3, g4, g5, g6⟩ := h.rd i r hri
    have hb : (Option.bind (some i) fun i => (s.rd i).bind fun r => r.data.map fun l => (i, l)) = some (i, l) := by
      show ((s.rd i).bind fun r => r.data.map fun l => (i, l)) = _
      rw [hri]
      show (r.data.map fun l => (i, l)) = _
      rw [hrl]; rfl
    rw [hb]
    cases hh : s.d.m.hold with
    | some p =>
      refine ⟨s.d.m, false, ?_, by rw [hr] at idle; exact idle⟩
      unfold Mshr.response
      rw [hh]
    | none =>
      refine ⟨{ s.d.m with hold := some (i, l) }, true, ?_, ?_⟩
      · unfold Mshr.response
        rw [hh]
        dsimp only
        rw [if_pos ⟨g1, g2, by rw [← g4]; exact hall i r hri⟩]
      · have hfind : ∀ X, Mshr.find { s.d.m with hold := some (i, l) } X = s.d.m.find X := fun _ => rfl
        refine ⟨?_, ?_, rfl, rfl, rfl, rfl⟩
        · constructor
          case ex =>
            constructor
            case arr => exact h.ex.arr
            case m => exact ⟨h.ex.m.al, h.ex.m.dist, h.ex.m.cnt, h.ex.m.clean⟩
            case hold =>
              intro j l' hj
              injection hj with hj
              injection hj with hj _
              subst hj
              exact ⟨g1, g2, by rw [← g4]; exact hall _ r hri⟩
            case wbc => exact h.ex.wbc
            case cw => exact h.ex.cw
            case mw => exact h.ex.mw
          case head => exact h.head
          case al => exact h.al
          case wr => exact h.wr
          case idle => exact h.idle
          case rd =>
            intro j r' hr'
            dsimp only at hr'
            split at hr'
            · cases hr'
            · next hc =>
              obtain ⟨k1, k2, k3, k4, k5, k6⟩ := h.rd j r' hr'
              refine ⟨k1, k2, k3, k4, k5, ?_⟩
              intro l' hl'
              injection hl' with hl'
              injection hl' with hl' _
              exact hc ⟨rfl, by rw [hl']⟩
          case rd1 =>
            intro j k r1 r2 hr1 hr2 h1 h2
            dsimp only at hr1 hr2
            split at hr1
            · cases hr1
            · split at hr2
              · cases hr2
              · exact h.rd1 j k r1 r2 hr1 hr2 h1 h2
          case hold =>
            intro j l' hj
            injection hj with hj
            injection hj with hj hj'
            subst hj
            subst hj'
            rw [g5 _ hrl, g3]
          case clean => exact h.clean
          case fill =>
            intro f hf
            obtain ⟨l', f1, _⟩ := h.fill f hf
            rw [hh] at f1; cases f1
          case pend => exact h.pend
          case pst => exact h.pst
        · intro X hX
          rfl

/-- The interconnect side of a cycle. -/
theorem axi_step {s : Sys} (h : Inv s) {slow : Bool} {ld : List Ld} {st : List St} {resp : Option Nat} {ack : Bool}
    (hv : s.Valid (.tick slow ld st resp ack)) :
    ∃ d1 tk, axiStep s.d (s.input slow ld st resp ack) = some (d1, tk) ∧
      Keeps s { s with d := d1, rd := s.rdAfter resp tk, wr := s.wrAfter ack } ∧ ∀ w, s.wrAfter ack = some w → w.acked = true := by
  obtain ⟨hv1, hv2⟩ := hv
  obtain ⟨b, hb, kb, hack⟩ := axi_wb h ack hv2
  obtain ⟨m, hm, km⟩ := axi_acc kb.inv
  obtain ⟨m2, tk, hr, kr⟩ := axi_resp km.inv (fun i r hri => by
    obtain ⟨_, _, rfl⟩ := Option.map_eq_some_iff.mp (show ((s.rd i).map fun r => ({ r with acked := true } : Rd)) = some r from hri)
    rfl) resp (fun i hi => by
      obtain ⟨r, l, h1, h2⟩ := hv1 i hi
      exact ⟨{ r with acked := true }, l, by show (s.rd i).map _ = _; rw [h1]; rfl, h2⟩)
  refine ⟨{ s.d with wb := b, m := m2 }, tk, ?_, ?_, hack⟩
  · unfold axiStep
    have h1 : s.d.wb.axi (s.input slow ld st resp ack).wbAccepted (s.input slow ld st resp ack).wbResp = some b := hb
    have h2 : s.d.m.accepted (s.input slow ld st resp ack).rdAccepted = some m := hm
    have h3 : m.response (s.input slow ld st resp ack).rdResp = (m2, tk) := by
      rw [← hr]
      congr 1
      show (resp.bind fun i => (s.rd i).bind fun r => r.data.map fun l => (i, l)) = _
      congr 1
      funext i
      show _ = ((s.rd i).map fun r => ({ r with acked := true } : Rd)).bind _
      cases s.rd i <;> rfl
    rw [h1, h2]
    dsimp only
    rw [h3]
  · have := (kb.trans km).trans kr
    exact this

end Verif.Dcache

import Verif.Proofs.TlbSpec

/-! One cycle of a TLB: its answers, and its walk against its port of the walker. -/
namespace Verif.TlbLane
open Verif.Ptw Verif.Tlb Verif.TlbSpec

/-- The walker's answer is right for the tables in memory. -/
def RespOk (mem : BitVec 32 → BitVec 32) (satp : BitVec 32) (r : Resp) : Prop :=
  if r.fault then leafB mem satp r.vaddr = none else leafB mem satp r.vaddr = some (r.pte, r.super)

def Idle (p : Port) : Prop := p.pending = false ∧ p.inflight = false ∧ p.resp = none

/-- A walk register and the port it uses; `F`: memory is as it was when the TLB was last flushed; `U`: values of satp. -/
structure TP (mem : BitVec 32 → BitVec 32) (F : Prop) (U : List (BitVec 32)) (w : Option Walk) (p : Port) : Prop where
  idle : (∀ x, w = some x → x.sent = false) → Idle p
  sent : ∀ x, w = some x → x.sent = true → p.req = ⟨x.vaddr, x.satp⟩ ∧
    ((p.pending = true ∧ p.inflight = false ∧ p.resp = none) ∨ (p.pending = false ∧ p.inflight = true ∧ p.resp = none) ∨
      (p.pending = false ∧ p.inflight = false ∧ ∃ r, p.resp = some r ∧ r.vaddr = x.vaddr ∧ (F → RespOk mem x.satp r)))
  satp : ∀ x, w = some x → x.satp ∈ U

def viewOf (p : Port) : View := { ready := !p.pending && !p.inflight, resp := p.resp }

/-- An entry is the leaf of some address under some value of satp in use. -/
def GoodE (mem : BitVec 32 → BitVec 32) (U : List (BitVec 32)) (e : Entry) : Prop :=
  ∃ satp ∈ U, ∃ v pte, leafB mem satp v = some (pte, e.super) ∧ e = mkEntry v satp pte e.super

theorem GoodE.mono {mem : BitVec 32 → BitVec 32} {U V : List (BitVec 32)} {e : Entry} (h : GoodE mem U e) (hs : ∀ x ∈ U, x ∈ V) : GoodE mem V e := by
  obtain ⟨s, hm, r⟩ := h
  exact ⟨s, hs s hm, r⟩

theorem TP.mono {mem : BitVec 32 → BitVec 32} {F : Prop} {U V : List (BitVec 32)} {w : Option Walk} {p : Port} (h : TP mem F U w p)
    (hs : ∀ x ∈ U, x ∈ V) : TP mem F V w p :=
  ⟨h.idle, h.sent, fun x hx => hs _ (h.satp x hx)⟩

theorem hit_ok {mem : BitVec 32 → BitVec 32} {U : List (BitVec 32)} {e : Entry} {s v : BitVec 32} (hg : GoodE mem U e)
    (hs : s ∈ U) (hc : CohB mem U) (hh : e.hits v (asidOf s) = true) :
    ∃ pte, leafB mem s v = some (pte, e.super) ∧ e.perm = pte.setWidth 8 ∧ e.paddr v = (mkEntry v s pte e.super).paddr v := by
  obtain ⟨t, ht, v0, pte, hl, he⟩ := hg
  unfold Entry.hits at hh
  simp only [Bool.and_eq_true, Bool.or_eq_true, decide_eq_true_eq] at hh
  obtain ⟨⟨ha, h1⟩, h0⟩ := hh
  have e1 : e.vpn1 = vpn1Of v0 := by rw [he]; rfl
  have e0 : e.vpn0 = vpn0Of v0 := by rw [he]; rfl
  have eg : e.global = pte.getLsbD 5 := by rw [he]; rfl
  have ea : e.asid = asidOf t := by rw [he]; rfl
  have hl' : leafB mem t v = some (pte, e.super) := by
    refine leafB_share hl (by rw [← e1]; exact h1) ?_
    rcases h0 with h0 | h0
    · exact .inl h0
    · exact .inr (by rw [← e0]; exact h0)
  have hl2 : leafB mem s v = some (pte, e.super) := by
    rw [← hl']
    apply hc t ht s hs v
    rcases ha with ha | ha
    · exact .inr ⟨_, hl', by rw [← eg]; exact ha⟩
    · exact .inl (by rw [← ea]; exact ha)
  refine ⟨pte, hl2, by rw [he]; rfl, ?_⟩
  have : e.ppn = (mkEntry v s pte e.super).ppn := by rw [he]; rfl
  unfold Entry.paddr
  rw [this]
  rfl

/-- What the answer to a request must be. -/
def expected (mem : BitVec 32 → BitVec 32) (c : Ctx) (q : Ask) : Option (BitVec 32) :=
  if c.eff q.type = 3 ∨ c.satp &&& 0x80000000#32 = 0#32 then some q.vaddr
  else useLeaf c q.type q.vaddr (leafB mem c.satp q.vaddr)

def ResOk (mem : BitVec 32 → BitVec 32) (c : Ctx) (q : Ask) : Result → Prop
  | .retry => True
  | .ok pa => expected mem c q = some pa
  | .fault => expected mem c q = none

/-- The port after a lane. -/
def after (p : Port) (o : LaneOut) : Port :=
  match o.req with
  | some r => p.send r
  | none => if o.consumed then { p with resp := none } else p

structure LaneOk (mem : BitVec 32 → BitVec 32) (F : Prop) (U : List (BitVec 32)) (cap : Nat) (c : Ctx) (q : Ask) (p : Port) (o : LaneOut) : Prop where
  res : F → CohB mem U → ResOk mem c q o.result
  tp : TP mem F U o.walk (after p o)
  refill : ∀ r, o.refill = some r → r.slot < cap ∧ (F → GoodE mem U r.entry)
  req : o.req.isSome = true → (viewOf p).ready = true
  cons : o.consumed = true → p.resp ≠ none ∧ o.req = none

theorem lane_ok {mem : BitVec 32 → BitVec 32} {F : Prop} {U : List (BitVec 32)} {cap repl : Nat} {c : Ctx} {q : Ask}
    {look : Option Entry} {w : Option Walk} {refill : Option Refill} {p : Port} (hcap : 0 < cap)
    (ht : TP mem F U w p) (hs : c.satp ∈ U)
    (hk : ∀ e, look = some e → e.hits q.vaddr (asidOf c.satp) = true ∧ (F → GoodE mem U e))
    (hr : ∀ r, refill = some r → r.slot < cap ∧ (F → GoodE mem U r.entry)) :
    LaneOk mem F U cap c q p (lane cap repl c q look w refill (viewOf p)) := by
  unfold lane
  by_cases hoff : c.eff q.type = 3 ∨ c.satp &&& 0x80000000#32 = 0#32
  · rw [if_pos hoff]
    exact ⟨(fun _ _ => by show expected mem c q = _; unfold expected; rw [if_pos hoff]), ht, hr,
      (fun h => by cases h), (fun h => by cases h)⟩
  · rw [if_neg hoff]
    have hexp : expected mem c q = useLeaf c q.type q.vaddr (leafB mem c.satp q.vaddr) := by
      unfold expected; rw [if_neg hoff]
    have hh : ∀ e, hitOf refill look q.vaddr (asidOf c.satp) = some e → e.hits q.vaddr (asidOf c.satp) = true ∧ (F → GoodE mem U e) := by
      intro e he
      unfold hitOf at he
      cases refill with
      | none => exact hk e he
      | some r =>
        dsimp only at he
        split at he
        · rename_i hx
          injection he with he
          rw [← he]; exact ⟨hx, (hr r rfl).2⟩
        · exact hk e he
    generalize hitOf refill look q.vaddr (asidOf c.satp) = hit at hh
    cases hit with
    | some e =>
      dsimp only
      obtain ⟨hx, hg⟩ := hh e rfl
      split
      · rename_i hck
        refine ⟨fun hF hC => ?_, ht, hr, (fun h => by cases h), (fun h => by cases h)⟩
        obtain ⟨pte, hl, hpm, hpa⟩ := hit_ok (hg hF) hs hC hx
        show expected mem c q = some (e.paddr q.vaddr)
        rw [hexp, hl]
        unfold useLeaf
        dsimp only
        rw [← hpm, if_pos hck, hpa]
      · rename_i hck
        refine ⟨fun hF hC => ?_, ht, hr, (fun h => by cases h), (fun h => by cases h)⟩
        obtain ⟨pte, hl, hpm, hpa⟩ := hit_ok (hg hF) hs hC hx
        show expected mem c q = none
        rw [hexp, hl]
        unfold useLeaf
        dsimp only
        rw [← hpm, if_neg hck]
    | none =>
      dsimp only
      cases how : ownWalk w c q with
      | none => exact ⟨fun _ _ => trivial, ht, hr, (fun h => by cases h), (fun h => by cases h)⟩
      | some x =>
        dsimp only
        -- the walk: fresh, or the active one of this page
        have hx : (w = some x ∧ x.vaddr >>> 12 = q.vaddr >>> 12 ∧ x.satp = c.satp) ∨
            (w = none ∧ x.sent = false ∧ x.satp = c.satp) := by
          unfold ownWalk at how
          cases w with
          | none => injection how with how; rw [← how]; exact .inr ⟨rfl, rfl, rfl⟩
          | some y =>
            dsimp only at how
            split at how
            · cases how
            · rename_i hn
              injection how with how
              subst how
              have hn := not_or.mp hn
              exact .inl ⟨rfl, Decidable.not_not.mp hn.1, Decidable.not_not.mp hn.2⟩
        have hidle : x.sent = false → Idle p := by
          intro hxs
          apply ht.idle
          intro y hy
          rcases hx with hx | hx
          · rw [hx.1] at hy; injection hy with hy; rw [← hy]; exact hxs
          · rw [hx.1] at hy; cases hy
        have hxs : x.satp ∈ U := by
          rcases hx with hx | hx
          · exact ht.satp x hx.1
          · rw [hx.2.2]; exact hs
        split
        · rename_i hsent
          have hI := hidle hsent
          have hready : (viewOf p).ready = true := by unfold viewOf; dsimp only; rw [hI.1, hI.2.1]; rfl
          split
          · rename_i hnr
            rw [hready] at hnr; cases hnr
          · refine ⟨fun _ _ => trivial, ?_, hr, fun _ => hready, (fun h => by cases h)⟩
            show TP mem F U (some { x with sent := true }) (p.send ⟨x.vaddr, x.satp⟩)
            have hsd : p.send ⟨x.vaddr, x.satp⟩ = { p with resp := none, pending := true, req := ⟨x.vaddr, x.satp⟩ } := by
              unfold Port.send
              dsimp only
              rw [hI.1, hI.2.1, if_neg (by decide)]
            rw [hsd]
            refine ⟨fun h => ?_, fun y hy _ => ?_, fun y hy => ?_⟩
            · have := h _ rfl; cases this
            · injection hy with hy
              subst hy
              exact ⟨rfl, .inl ⟨rfl, hI.2.1, rfl⟩⟩
            · injection hy with hy
              subst hy
              exact hxs
        · rename_i hsent
          have hsent : x.sent = true := by simpa using hsent
          have hw : w = some x ∧ x.vaddr >>> 12 = q.vaddr >>> 12 ∧ x.satp = c.satp := by
            rcases hx with hx | hx
            · exact hx
            · rw [hx.2.1] at hsent; cases hsent
          obtain ⟨hreq, hst⟩ := ht.sent x hw.1 hsent
          have hview : (viewOf p).resp = p.resp := rfl
          rw [hview]
          cases hresp : p.resp with
          | none =>
            dsimp only
            refine ⟨fun _ _ => trivial, ?_, hr, (fun h => by cases h), (fun h => by cases h)⟩
            show TP mem F U (some x) p
            rw [← hw.1]; exact ht
          | some r =>
            dsimp only
            have hrr : r.vaddr = x.vaddr ∧ (F → RespOk mem x.satp r) ∧ p.pending = false ∧ p.inflight = false := by
              rcases hst with h | h | ⟨h1, h2, r', h3, h4⟩
              · rw [h.2.2] at hresp; cases hresp
              · rw [h.2.2] at hresp; cases hresp
              · rw [h3] at hresp; injection hresp with hresp; subst hresp
                exact ⟨h4.1, h4.2, h1, h2⟩
            rw [if_neg (by rw [hrr.1]; exact fun h => h rfl)]
            have hleaf : F → RespOk mem c.satp { r with vaddr := q.vaddr } := by
              intro hF
              have := hrr.2.1 hF
              unfold RespOk at this ⊢
              dsimp only
              rw [hw.2.2, hrr.1, leafB_page hw.2.1] at this
              exact this
            have hnone : TP mem F U none { p with resp := none } :=
              ⟨fun _ => ⟨hrr.2.2.1, hrr.2.2.2, rfl⟩, fun y hy => (by cases hy), fun y hy => (by cases hy)⟩
            have hpr : p.resp ≠ none := by rw [hresp]; exact fun h => by cases h
            unfold finishWalk
            split
            · rename_i hf
              refine ⟨fun hF hC => ?_, hnone, hr, (fun h => by cases h), fun _ => ⟨hpr, rfl⟩⟩
              show expected mem c q = none
              have := hleaf hF
              unfold RespOk at this
              dsimp only at this
              rw [if_pos hf] at this
              rw [hexp, this]; rfl
            · rename_i hf
              have hl : F → leafB mem c.satp q.vaddr = some (r.pte, r.super) := by
                intro hF
                have := hleaf hF
                unfold RespOk at this
                dsimp only at this
                rw [if_neg hf] at this
                exact this
              split
              · rename_i hck
                refine ⟨fun hF hC => ?_, hnone, hr, (fun h => by cases h), fun _ => ⟨hpr, rfl⟩⟩
                show expected mem c q = none
                rw [hexp, hl hF]
                unfold useLeaf
                dsimp only
                rw [hck]; rfl
              · rename_i hck
                refine ⟨fun hF hC => ?_, hnone, fun r' hr' => ?_, (fun h => by cases h), fun _ => ⟨hpr, rfl⟩⟩
                · show expected mem c q = some _
                  rw [hexp, hl hF]
                  unfold useLeaf
                  dsimp only
                  rw [if_pos (by simpa using hck)]
                · injection hr' with hr'
                  rw [← hr']
                  exact ⟨Nat.mod_lt _ hcap, fun hF => ⟨c.satp, hs, q.vaddr, r.pte, hl hF, rfl⟩⟩

/-- The loop against the port. -/
structure LI (mem : BitVec 32 → BitVec 32) (F : Prop) (U : List (BitVec 32)) (cap : Nat) (p0 : Port) (l : Loop) : Prop where
  tp : TP mem F U l.walk (p0.apply { req := l.req, consumed := l.consumed })
  view : l.view = viewOf (p0.apply { req := l.req, consumed := l.consumed })
  refill : ∀ r, l.refill = some r → r.slot < cap ∧ (F → GoodE mem U r.entry)
  ready : l.req.isSome = true → (viewOf p0).ready = true

theorem send_busy (p : Port) (r : Req) : (viewOf (p.send r)).ready = false ∧ (p.send r).resp = none := by
  unfold Port.send viewOf
  dsimp only
  split
  · rename_i h
    refine ⟨?_, rfl⟩
    rcases h with h | h
    · dsimp only at h ⊢; rw [h]; rfl
    · dsimp only at h ⊢; rw [h]; cases p.pending <;> rfl
  · exact ⟨rfl, rfl⟩

theorem lane_loop {mem : BitVec 32 → BitVec 32} {F : Prop} {U : List (BitVec 32)} {cap : Nat} {p0 : Port} {l : Loop} {c : Ctx} {q : Ask}
    {o : LaneOut} (hl : LI mem F U cap p0 l)
    (ho : LaneOk mem F U cap c q (p0.apply { req := l.req, consumed := l.consumed }) o) : LI mem F U cap p0 (l.next o) := by
  cases horeq : o.req with
  | some r =>
    have hrd := ho.req (by rw [horeq]; rfl)
    have hcons : o.consumed = false := by
      cases hc : o.consumed with
      | false => rfl
      | true => have := (ho.cons hc).2; rw [horeq] at this; cases this
    have hlreq : l.req = none := by
      cases hlr : l.req with
      | none => rfl
      | some r' =>
        rw [hlr] at hrd
        have := (send_busy (if l.consumed then { p0 with resp := none } else p0) r').1
        rw [show p0.apply { req := some r', consumed := l.consumed } = (if l.consumed then { p0 with resp := none } else p0).send r' from rfl, this] at hrd
        cases hrd
    have htp := ho.tp
    unfold after at htp
    rw [horeq, hlreq] at htp
    dsimp only at htp
    have happ : (p0.apply { req := none, consumed := l.consumed }).send r = p0.apply { req := some r, consumed := l.consumed } := rfl
    rw [happ] at htp
    have hn : l.next o = { walk := o.walk, refill := o.refill, view := { ready := false, resp := none }, req := some r, consumed := l.consumed } := by
      unfold Loop.next
      rw [horeq, hcons]
      simp
    rw [hn]
    refine ⟨htp, ?_, ho.refill, fun _ => ?_⟩
    · have := send_busy (if l.consumed then { p0 with resp := none } else p0) r
      show _ = viewOf ((if l.consumed then { p0 with resp := none } else p0).send r)
      generalize (if l.consumed then { p0 with resp := none } else p0).send r = p at this
      have h2 : viewOf p = ⟨(viewOf p).ready, p.resp⟩ := rfl
      rw [h2, this.1, this.2]
    · rw [hlreq] at hrd
      unfold Port.apply viewOf at hrd
      dsimp only at hrd
      cases hc : l.consumed
      · rw [hc] at hrd; exact hrd
      · rw [hc] at hrd; exact hrd
  | none =>
    have htp := ho.tp
    unfold after at htp
    rw [horeq] at htp
    dsimp only at htp
    cases hc : o.consumed with
    | false =>
      rw [hc] at htp
      have hn : l.next o = { walk := o.walk, refill := o.refill, view := l.view, req := l.req, consumed := l.consumed } := by
        unfold Loop.next
        rw [horeq, hc]
        simp
      rw [hn]
      exact ⟨htp, hl.view, ho.refill, hl.ready⟩
    | true =>
      rw [hc] at htp
      have hpr := (ho.cons hc).1
      have hlreq : l.req = none := by
        cases hlr : l.req with
        | none => rfl
        | some r' =>
          rw [hlr] at hpr
          exact absurd (send_busy (if l.consumed then { p0 with resp := none } else p0) r').2 hpr
      have hn : l.next o = { walk := o.walk, refill := o.refill, view := { l.view with resp := none }, req := none, consumed := true } := by
        unfold Loop.next
        rw [horeq, hc, hlreq]
        simp
      have happ : { p0.apply { req := none, consumed := l.consumed } with resp := none } = p0.apply { req := none, consumed := true } := by
        unfold Port.apply
        dsimp only
        cases l.consumed <;> rfl
      rw [hlreq] at htp
      rw [hn]
      refine ⟨?_, ?_, ho.refill, (fun h => by cases h)⟩
      · rw [if_pos rfl, happ] at htp; exact htp
      · show ({ l.view with resp := none } : View) = viewOf (p0.apply { req := none, consumed := true })
        rw [hl.view, hlreq, ← happ]; rfl

theorem lookup_ok {cap : Nat} {tab : Nat → Option Entry} {v : BitVec 32} {a : BitVec 9} {e : Entry} (h : lookup cap tab v a = some e) :
    ∃ i, i < cap ∧ tab i = some e ∧ e.hits v a = true := by
  unfold lookup at h
  obtain ⟨i, hi, hx⟩ := List.exists_of_findSome?_eq_some h
  refine ⟨i, List.mem_range.mp hi, ?_⟩
  cases ht : tab i with
  | none => rw [ht] at hx; cases hx
  | some e' =>
    rw [ht] at hx
    dsimp only [Option.bind_some] at hx
    split at hx
    · rename_i hh; injection hx with hx; subst hx; exact ⟨rfl, hh⟩
    · cases hx

/-- Every request of the list is answered, and only those. -/
structure AllOk (mem : BitVec 32 → BitVec 32) (F : Prop) (c : Ctx) (qs : List (Option Ask)) (rs : List (Option Result)) : Prop where
  len : rs.length = qs.length
  some_ : ∀ (i : Nat) q, qs[i]? = some (some q) → ∃ r, rs[i]? = some (some r) ∧ (F → ResOk mem c q r)
  none_ : ∀ i : Nat, qs[i]? = some none → rs[i]? = some none

theorem AllOk.cons {mem : BitVec 32 → BitVec 32} {F : Prop} {c : Ctx} {qs : List (Option Ask)} {rs : List (Option Result)} (h : AllOk mem F c qs rs)
    {q : Option Ask} {r : Option Result} (h1 : ∀ q', q = some q' → ∃ r', r = some r' ∧ (F → ResOk mem c q' r')) (h2 : q = none → r = none) :
    AllOk mem F c (q :: qs) (r :: rs) := by
  refine ⟨by simp [h.len], fun i q' hq => ?_, fun i hq => ?_⟩
  · cases i with
    | zero =>
      simp only [List.getElem?_cons_zero, Option.some.injEq] at hq ⊢
      exact h1 q' hq
    | succ i => simp only [List.getElem?_cons_succ] at hq ⊢; exact h.some_ i q' hq
  · cases i with
    | zero =>
      simp only [List.getElem?_cons_zero, Option.some.injEq] at hq ⊢
      exact h2 hq
    | succ i => simp only [List.getElem?_cons_succ] at hq ⊢; exact h.none_ i hq

theorem runLanes_ok {mem : BitVec 32 → BitVec 32} {F : Prop} {U : List (BitVec 32)} {cap repl : Nat} {tab : Nat → Option Entry} {c : Ctx} {p0 : Port}
    (hcap : 0 < cap) (hs : c.satp ∈ U) (htab : ∀ i e, tab i = some e → F → GoodE mem U e) :
    ∀ (qs : List (Option Ask)) (l : Loop), LI mem F U cap p0 l →
      LI mem F U cap p0 (runLanes cap repl tab c l qs).1 ∧ AllOk mem (F ∧ CohB mem U) c qs (runLanes cap repl tab c l qs).2 := by
  intro qs
  induction qs with
  | nil => intro l hl; exact ⟨hl, rfl, fun i q h => (by simp at h), fun i h => (by simp at h)⟩
  | cons q qs ih =>
    intro l hl
    cases q with
    | none =>
      have := ih l hl
      exact ⟨this.1, this.2.cons (fun _ h => by cases h) (fun _ => rfl)⟩
    | some q =>
      have ho : LaneOk mem F U cap c q (p0.apply { req := l.req, consumed := l.consumed })
          (lane cap repl c q (lookup cap tab q.vaddr (asidOf c.satp)) l.walk l.refill l.view) := by
        rw [hl.view]
        refine lane_ok hcap hl.tp hs (fun e he => ?_) hl.refill
        obtain ⟨i, _, hi, hh⟩ := lookup_ok he
        exact ⟨hh, htab i e hi⟩
      have := ih _ (lane_loop hl ho)
      exact ⟨this.1, this.2.cons (fun q' h => by injection h with h; subst h; exact ⟨_, rfl, fun h => ho.res h.1 h.2⟩) (fun h => by cases h)⟩

/-! ## The cycle -/

/-- A TLB within a cycle, against its port `p0` at the beginning of the cycle.  The port after the calls made so far is
`p0.apply m.calls`, or an idle one once the client has been flushed. -/
structure MI (mem : BitVec 32 → BitVec 32) (F : Prop) (U : List (BitVec 32)) (cap : Nat) (p0 : Port) (m : Mid) : Prop where
  port : ∃ p, TP mem F U m.walk p ∧ m.view = viewOf p ∧ (m.calls.flush = false → p = p0.apply m.calls)
  flush : m.calls.flush = true → m.flushed = true ∨ m.walk = none
  flushed : m.flushed = true → m.calls.flush = true
  refill : ∀ r, m.refill = some r → r.slot < cap ∧ (F → GoodE mem U r.entry)
  bad : m.bad = false
  repl : m.repl < cap
  tab : ∀ i e, m.tab i = some e → F → GoodE mem U e

theorem tp_none {mem : BitVec 32 → BitVec 32} {F : Prop} {U : List (BitVec 32)} {p : Port} (h : Idle p) : TP mem F U none p :=
  ⟨fun _ => h, fun _ hx => (by cases hx), fun _ hx => (by cases hx)⟩

theorem idle_view {p : Port} (h : Idle p) : viewOf p = { ready := true, resp := none } := by
  unfold viewOf; rw [h.1, h.2.1, h.2.2]; rfl

theorem start_mi {mem : BitVec 32 → BitVec 32} {F : Prop} {U : List (BitVec 32)} {cap : Nat} {s : Tlb.State} {p0 : Port}
    (ht : TP mem F U s.walk p0) (hr : s.repl < cap) (htab : ∀ i e, s.tab i = some e → F → GoodE mem U e) :
    MI mem F U cap p0 (s.start (viewOf p0)) :=
  ⟨⟨p0, ht, rfl, fun _ => rfl⟩, (fun h => by cases h), (fun h => by cases h), (fun r h => by cases h), rfl, hr, htab⟩

theorem flushClient_mi {mem : BitVec 32 → BitVec 32} {F : Prop} {U : List (BitVec 32)} {cap : Nat} {p0 : Port} {m : Mid} (h : MI mem F U cap p0 m)
    {b : Bool} {w : Option Refill} (hb : m.flushed = true → b = true) (hw : ∀ r, w = some r → m.refill = some r) :
    MI mem F U cap p0 { m.flushClient with flushed := b, walk := none, refill := w } := by
  refine ⟨⟨{}, tp_none ⟨rfl, rfl, rfl⟩, rfl, fun h => by cases h⟩, fun _ => .inr rfl, fun _ => rfl, fun r hr => h.refill r (hw r hr), h.bad, h.repl, h.tab⟩

theorem done_ok {mem : BitVec 32 → BitVec 32} {F : Prop} {U : List (BitVec 32)} {m : Mid} {p : Port} {w : Walk} {r : Resp}
    (ht : TP mem F U m.walk p) (hv : m.view = viewOf p) (hd : m.done = some (w, r)) :
    m.walk = some w ∧ p.resp = some r ∧ w.satp ∈ U ∧ (F → RespOk mem w.satp { r with vaddr := w.vaddr }) ∧ p.pending = false ∧ p.inflight = false := by
  unfold Mid.done at hd
  rw [hv] at hd
  cases hw : m.walk with
  | none => rw [hw] at hd; cases hd
  | some x =>
    rw [hw] at hd
    change (match some x, p.resp with
      | some w, some r => if w.sent = true ∧ r.vaddr >>> 12 = w.vaddr >>> 12 then some (w, r) else none
      | _, _ => none) = some (w, r) at hd
    cases hp : p.resp with
    | none => rw [hp] at hd; cases hd
    | some r' =>
      rw [hp] at hd
      dsimp only at hd
      split at hd
      · rename_i hs
        injection hd with hd
        injection hd with h1 h2
        subst h1 h2
        rcases (ht.sent x hw hs.1).2 with h | h | ⟨h1, h2, r2, h3, h4⟩
        · rw [h.2.2] at hp; cases hp
        · rw [h.2.2] at hp; cases hp
        · rw [h3] at hp; injection hp with hp; subst hp
          refine ⟨rfl, rfl, ht.satp x hw, fun hF => ?_, h1, h2⟩
          have := h4.2 hF
          unfold RespOk at this ⊢
          dsimp only
          rw [← h4.1]; exact this
      · cases hd

/-- `complete`: the state afterwards, with the walk dropped if it reports true. -/
theorem complete_mi {mem : BitVec 32 → BitVec 32} {F : Prop} {U : List (BitVec 32)} {cap : Nat} {p0 : Port} {m : Mid} (h : MI mem F U cap p0 m)
    (hn : m.calls.req = none) (b : Bool) :
    MI mem F U cap p0 (if (m.complete b).2 then { (m.complete b).1 with walk := none } else (m.complete b).1) ∧
    (m.complete b).1.calls.req = none ∧ (m.complete b).1.flushed = m.flushed ∧
    (m.complete b).1.calls.flush = m.calls.flush ∧ (m.complete b).1.bad = m.bad ∧ (m.complete b).1.repl = m.repl ∧
    (m.complete b).1.tab = m.tab ∧ (∀ r, (m.complete b).1.refill = some r → r.slot < cap ∧ (F → GoodE mem U r.entry)) := by
  obtain ⟨p, ht, hv, hp⟩ := h.port
  unfold Mid.complete
  cases hd : m.done with
  | none => exact ⟨h, hn, rfl, rfl, rfl, rfl, rfl, h.refill⟩
  | some wr =>
    obtain ⟨w, r⟩ := wr
    dsimp only
    obtain ⟨hw, hpr, hsU, hok, hpd, hpi⟩ := done_ok ht hv hd
    have hidle : Idle { p with resp := none } := ⟨hpd, hpi, rfl⟩
    have hcons : MI mem F U cap p0 { m.consume with walk := none } := by
      refine ⟨⟨{ p with resp := none }, tp_none hidle, ?_, fun hf => ?_⟩, fun _ => .inr rfl, h.flushed, h.refill, h.bad, h.repl, h.tab⟩
      · show ({ m.view with resp := none } : View) = _
        rw [hv]; rfl
      · have := hp hf
        show _ = p0.apply { m.calls with consumed := true }
        rw [this]
        unfold Port.apply
        dsimp only
        rw [hn]
        cases m.calls.consumed <;> rfl
    have hgood : ¬ r.fault = true → ∀ r', (m.schedule w r).consume.refill = some r' → r'.slot < cap ∧ (F → GoodE mem U r'.entry) := by
      intro hf r' hr'
      have : r' = { slot := m.repl, entry := mkEntry w.vaddr w.satp r.pte r.super } := by
        injection hr' with hr'; exact hr'.symm
      rw [this]
      refine ⟨h.repl, fun hF => ⟨w.satp, hsU, w.vaddr, r.pte, ?_, rfl⟩⟩
      have := hok hF
      unfold RespOk at this
      dsimp only at this
      rw [if_neg hf] at this
      exact this
    split
    · split
      · exact ⟨hcons, hn, rfl, rfl, rfl, rfl, rfl, h.refill⟩
      · exact ⟨h, hn, rfl, rfl, rfl, rfl, rfl, h.refill⟩
    · rename_i hf
      split
      · refine ⟨?_, hn, rfl, rfl, rfl, rfl, rfl, hgood hf⟩
        obtain ⟨p', a1, a2, a3⟩ := hcons.port
        exact ⟨⟨p', a1, a2, a3⟩, hcons.flush, hcons.flushed, hgood hf, hcons.bad, hcons.repl, hcons.tab⟩
      · split
        · exact ⟨hcons, hn, rfl, rfl, rfl, rfl, rfl, h.refill⟩
        · exact ⟨h, hn, rfl, rfl, rfl, rfl, rfl, h.refill⟩

theorem cancel_mi {mem : BitVec 32 → BitVec 32} {F : Prop} {U : List (BitVec 32)} {cap : Nat} {p0 : Port} {m : Mid} (h : MI mem F U cap p0 m)
    (hn : m.calls.req = none) : MI mem F U cap p0 m.cancel := by
  have hc := (complete_mi h hn true).2
  unfold Mid.cancel
  generalize (m.complete true).1 = m' at hc
  obtain ⟨h1, h2, h3, h4, h5, h6, h7⟩ := hc
  refine ⟨⟨{}, tp_none ⟨rfl, rfl, rfl⟩, rfl, fun h => by cases h⟩, fun _ => .inr rfl, fun _ => rfl, h7, ?_, ?_, ?_⟩
  · show m'.bad = false; rw [h4]; exact h.bad
  · show m'.repl < cap; rw [h5]; exact h.repl
  · show ∀ i e, m'.tab i = some e → _; rw [h6]; exact h.tab

theorem translate_mi {mem : BitVec 32 → BitVec 32} {F : Prop} {U : List (BitVec 32)} {cap : Nat} {p0 : Port} {m : Mid} (h : MI mem F U cap p0 m)
    (hcap : 0 < cap) (hn : m.calls.req = none) (hfl : m.calls.flush = true → m.flushed = true)
    {c : Ctx} (hs : c.satp ∈ U) (qs : List (Option Ask)) :
    MI mem F U cap p0 (m.translate cap c qs).1 ∧ AllOk mem (F ∧ CohB mem U) c qs (m.translate cap c qs).2 ∧ (m.translate cap c qs).1.flushed = m.flushed := by
  obtain ⟨p, ht, hv, hp⟩ := h.port
  have hl : LI mem F U cap p { walk := m.walk, refill := m.refill, view := m.view } := ⟨ht, hv, h.refill, fun h => by cases h⟩
  obtain ⟨h1, h2⟩ := runLanes_ok (repl := m.repl) hcap hs h.tab qs _ hl
  unfold Mid.translate
  dsimp only
  generalize (runLanes cap m.repl m.tab c { walk := m.walk, refill := m.refill, view := m.view } qs) = R at h1 h2
  obtain ⟨l, rs⟩ := R
  dsimp only at h1 h2 ⊢
  refine ⟨?_, h2, ?_⟩
  · -- the state after applying the loop's result
    have hform : m.applyTop l = { m with
        walk := l.walk, refill := l.refill, view := l.view
        calls := { req := l.req, consumed := m.calls.consumed || l.consumed, flush := m.calls.flush } } := by
      unfold Mid.applyTop
      cases hr : l.req with
      | none =>
        dsimp only
        have hview := h1.view
        rw [hr] at hview
        cases hc : l.consumed with
        | false =>
          rw [hc] at hview
          have : l.view = m.view := by rw [hview, hv]; rfl
          rw [this]
          simp [hn.symm]
        | true =>
          rw [hc] at hview
          have : l.view = { m.view with resp := none } := by rw [hview, hv]; rfl
          rw [this]
          unfold Mid.consume
          simp [hn.symm]
      | some r =>
        dsimp only
        have hrd := h1.ready (by rw [hr]; rfl)
        have hview := h1.view
        rw [hr] at hview
        have hb := send_busy (if l.consumed then { p with resp := none } else p) r
        have : l.view = { ready := false, resp := none } := by
          rw [hview]
          show viewOf ((if l.consumed then { p with resp := none } else p).send r) = _
          generalize (if l.consumed then { p with resp := none } else p).send r = x at hb
          have h2 : viewOf x = ⟨(viewOf x).ready, x.resp⟩ := rfl
          rw [h2, hb.1, hb.2]
        rw [this]
        have hs : m.send r = { m with calls := { m.calls with req := some r }, view := { ready := false, resp := none } } := by
          unfold Mid.send
          rw [if_neg]
          rw [hv, hrd, hn]; simp
        rw [hs]
        unfold Mid.consume
        cases l.consumed <;> simp
    rw [hform]
    refine ⟨⟨_, h1.tp, h1.view, fun hf => ?_⟩, fun hf => .inl (hfl hf), h.flushed, h1.refill, h.bad, h.repl, h.tab⟩
    dsimp only at hf ⊢
    rw [hp hf]
    unfold Port.apply
    dsimp only
    rw [hn]
    cases m.calls.consumed <;> cases l.consumed <;> rfl
  · unfold Mid.applyTop
    have hsend : ∀ r, (m.send r).flushed = m.flushed := by
      intro r; unfold Mid.send; split <;> rfl
    cases l.req with
    | none => cases l.consumed <;> rfl
    | some r =>
      dsimp only
      cases l.consumed
      · exact hsend r
      · exact hsend r

/-- The data TLB's cycle. -/
theorem dcycle_mi {mem : BitVec 32 → BitVec 32} {F : Prop} {U : List (BitVec 32)} {cap : Nat} {p0 : Port} {s : Tlb.State} (hcap : 0 < cap)
    (ht : TP mem F U s.walk p0) (hr : s.repl < cap) (htab : ∀ i e, s.tab i = some e → F → GoodE mem U e) (op : DOp)
    (hU : ∀ c qs, op = .translate c qs → c.satp ∈ U) :
    MI mem F U cap p0 (dtlbCycle cap (s.start (viewOf p0)) op).1 ∧
    (∀ c qs, op = .translate c qs → AllOk mem (F ∧ CohB mem U) c qs (dtlbCycle cap (s.start (viewOf p0)) op).2) ∧
    (∀ c qs, op = .translate c qs → (dtlbCycle cap (s.start (viewOf p0)) op).1.flushed = false) := by
  have h := start_mi ht hr htab
  unfold dtlbCycle
  cases op with
  | fence => exact ⟨flushClient_mi h (fun _ => rfl) (fun r hr => by cases hr), (fun _ _ e => by cases e), (fun _ _ e => by cases e)⟩
  | cancel => exact ⟨cancel_mi h rfl, (fun _ _ e => by cases e), (fun _ _ e => by cases e)⟩
  | translate c qs =>
    dsimp only
    unfold Mid.translateLsu
    dsimp only
    obtain ⟨h1, h2, h3, h4, _⟩ := complete_mi h rfl false
    have hm2 : ∀ m : Mid × Bool, (if m.2 then { m.1 with walk := none } else m.1).calls = m.1.calls ∧
        (if m.2 then { m.1 with walk := none } else m.1).flushed = m.1.flushed := by
      intro m; cases m.2 <;> exact ⟨rfl, rfl⟩
    obtain ⟨q1, q2⟩ := hm2 ((s.start (viewOf p0)).complete false)
    have hfl : (s.start (viewOf p0)).flushed = false := rfl
    have hcf : (s.start (viewOf p0)).calls.flush = false := rfl
    have := translate_mi h1 hcap (by rw [q1]; exact h2) (by rw [q1, h4, hcf]; intro e; cases e) (hU c qs rfl) qs
    refine ⟨this.1, fun c' qs' e => ?_, fun c' qs' e => ?_⟩
    · injection e with e1 e2; subst e1 e2; exact this.2.1
    · rw [this.2.2, q2, h3]; exact hfl

/-- The instruction TLB's cycle. -/
theorem icycle_mi {mem : BitVec 32 → BitVec 32} {F : Prop} {U : List (BitVec 32)} {cap : Nat} {p0 : Port} {s : Tlb.State} (hcap : 0 < cap)
    (ht : TP mem F U s.walk p0) (hr : s.repl < cap) (htab : ∀ i e, s.tab i = some e → F → GoodE mem U e) (op : IOp)
    (hU : ∀ c v, op.cancel = false → op.ask = some (c, v) → c.satp ∈ U) :
    MI mem F U cap p0 (itlbCycle cap (s.start (viewOf p0)) op).1 ∧
    (∀ c v, op.cancel = false → op.ask = some (c, v) → AllOk mem (F ∧ CohB mem U) c [some ⟨v, 0⟩] (itlbCycle cap (s.start (viewOf p0)) op).2) := by
  have h := start_mi ht hr htab
  unfold itlbCycle
  have h1 : MI mem F U cap p0 (if op.flush then (s.start (viewOf p0)).flush else s.start (viewOf p0)) ∧
      (if op.flush then (s.start (viewOf p0)).flush else s.start (viewOf p0)).calls.req = none ∧
      ((if op.flush then (s.start (viewOf p0)).flush else s.start (viewOf p0)).calls.flush = true →
        (if op.flush then (s.start (viewOf p0)).flush else s.start (viewOf p0)).flushed = true) := by
    cases op.flush with
    | false => exact ⟨h, rfl, fun e => by cases e⟩
    | true => exact ⟨flushClient_mi h (fun _ => rfl) (fun r hr => by cases hr), rfl, fun _ => rfl⟩
  generalize (if op.flush then (s.start (viewOf p0)).flush else s.start (viewOf p0)) = m at h1
  dsimp only
  cases hc : op.cancel with
  | true => exact ⟨cancel_mi h1.1 h1.2.1, fun _ _ e => by cases e⟩
  | false =>
    cases ha : op.ask with
    | none => exact ⟨h1.1, fun _ _ _ e => by cases e⟩
    | some cv =>
      obtain ⟨c, v⟩ := cv
      have := translate_mi h1.1 hcap h1.2.1 h1.2.2 (hU c v hc ha) [some ⟨v, 0⟩]
      refine ⟨this.1, fun c' v' _ e => ?_⟩
      injection e with e
      injection e with e1 e2
      subst e1 e2
      exact this.2.1

/-- The registers at the end of the cycle. -/
theorem seq_ok {mem : BitVec 32 → BitVec 32} {F : Prop} {U : List (BitVec 32)} {cap : Nat} {p0 : Port} {m : Mid} (hcap : 0 < cap)
    (h : MI mem F U cap p0 m) :
    (m.seq cap).repl < cap ∧ (m.flushed = true → m.seq cap = {}) ∧
    (m.flushed = false → (m.seq cap).walk = m.walk ∧ ∀ i e, (m.seq cap).tab i = some e → F → GoodE mem U e) := by
  unfold Mid.seq
  cases hf : m.flushed with
  | true =>
    rw [if_pos rfl]
    exact ⟨hcap, fun _ => rfl, fun e => by cases e⟩
  | false =>
    rw [if_neg (by decide)]
    cases hr : m.refill with
    | none => exact ⟨h.repl, (fun e => by cases e), fun _ => ⟨rfl, h.tab⟩⟩
    | some r =>
      refine ⟨Nat.mod_lt _ hcap, (fun e => by cases e), fun _ => ⟨rfl, fun i e he hF => ?_⟩⟩
      dsimp only at he
      split at he
      · injection he with he; rw [← he]; exact (h.refill r hr).2 hF
      · exact h.tab i e he hF

end Verif.TlbLane

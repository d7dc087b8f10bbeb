import Verif.Proofs.TlbLane

/-! The walker's registers, step by step through a cycle. -/
namespace Verif.PtwInv
open Verif.Ptw Verif.Tlb Verif.TlbSpec Verif.TlbLane

/-- The request being walked. -/
abbrev oreq (st : Ptw.State) : Req := (st.port st.owner).req

/-- The address of the read the walk is at. -/
def cur (st : Ptw.State) : BitVec 32 :=
  match st.phase with
  | .req2 | .wait2 => addr2 st.pte1 (oreq st).vaddr
  | _ => addr1 (oreq st)

/-- The walker by itself; `fresh c`: memory is as it was when client `c` last flushed. -/
structure PI (mem : BitVec 32 → BitVec 32) (fresh : Client → Prop) (st : Ptw.State) : Prop where
  infl : ∀ c, (st.port c).inflight = true ↔ (st.active = true ∧ st.owner = c)
  act : st.active = true ↔ st.phase ≠ .idle
  rid : st.reqId.isSome = true ↔ (st.phase = .wait1 ∨ st.phase = .wait2)
  ptr : (st.phase = .req2 ∨ st.phase = .wait2) → fresh st.owner →
    st.pte1 = mem (addr1 (oreq st)) ∧ bad st.pte1 = false ∧ isLeaf st.pte1 = false

/-- The ports of the clients in `K`. -/
def TPs (mem : BitVec 32 → BitVec 32) (fresh : Client → Prop) (U : Client → List (BitVec 32)) (K : Client → Prop)
    (w : Client → Option Walk) (st : Ptw.State) : Prop :=
  ∀ c, K c → TP mem (fresh c) (U c) (w c) (st.port c)

theorem apply_infl (p : Port) (i : In) : (p.apply i).inflight = p.inflight ∧ (p.inflight = true → (p.apply i).req = p.req) := by
  unfold Port.apply
  dsimp only
  have h1 : ∀ p : Port, ∀ r, (p.send r).inflight = p.inflight ∧ (p.inflight = true → (p.send r).req = p.req) := by
    intro p r
    unfold Port.send
    dsimp only
    split
    · exact ⟨rfl, fun _ => rfl⟩
    · rename_i h
      refine ⟨rfl, fun hi => ?_⟩
      exact absurd (Or.inr hi) h
  cases i.req with
  | none => cases i.consumed <;> exact ⟨rfl, fun _ => rfl⟩
  | some r =>
    dsimp only
    cases i.consumed
    · exact h1 p r
    · exact h1 { p with resp := none } r

theorem pi_inputs {mem : BitVec 32 → BitVec 32} {fresh : Client → Prop} {st : Ptw.State} (h : PI mem fresh st) (i : Client → In) :
    PI mem fresh (st.inputs i) ∧ (st.active = true → oreq (st.inputs i) = oreq st) := by
  have ho : st.active = true → oreq (st.inputs i) = oreq st := by
    intro ha
    exact (apply_infl (st.port st.owner) (i st.owner)).2 ((h.infl st.owner).mpr ⟨ha, rfl⟩)
  refine ⟨⟨fun c => ?_, h.act, h.rid, fun hp hf => ?_⟩, ho⟩
  · show ((st.port c).apply (i c)).inflight = true ↔ _
    rw [(apply_infl _ _).1]; exact h.infl c
  · have ha : st.active = true := h.act.mpr (fun e => by
      rcases hp with hp | hp
      · rw [show st.phase = .req2 from hp] at e; cases e
      · rw [show st.phase = .wait2 from hp] at e; cases e)
    have := h.ptr hp hf
    rw [ho ha]
    exact this

theorem pi_start {mem : BitVec 32 → BitVec 32} {fresh : Client → Prop} {st : Ptw.State} (h : PI mem fresh st) (c : Client)
    (hi : st.active = false ∧ st.phase = .idle) : PI mem fresh (st.start c) := by
  have hnone : st.reqId.isSome = false := by
    cases hr : st.reqId.isSome with
    | false => rfl
    | true =>
      rcases h.rid.mp hr with e | e
      · rw [hi.2] at e; cases e
      · rw [hi.2] at e; cases e
  refine ⟨fun c' => ?_, ?_, ?_, ?_⟩
  · unfold Ptw.State.start State.setPort
    dsimp only
    by_cases e : c' = c
    · rw [if_pos e, e]; simp
    · rw [if_neg e]
      have := h.infl c'
      rw [hi.1] at this
      constructor
      · intro x; have := this.mp x; simp at this
      · intro x; exact absurd x.2.symm e
  · unfold Ptw.State.start; simp
  · unfold Ptw.State.start State.setPort
    dsimp only
    rw [hnone]; simp
  · intro hp
    unfold Ptw.State.start at hp
    dsimp only at hp
    rcases hp with e | e <;> cases e

theorem pi_select {mem : BitVec 32 → BitVec 32} {fresh : Client → Prop} {st : Ptw.State} (h : PI mem fresh st) : PI mem fresh st.select := by
  unfold Ptw.State.select
  split
  · exact h
  · rename_i hn
    have hn := not_or.mp hn
    have hi : st.active = false ∧ st.phase = .idle := ⟨by simpa using hn.1, Decidable.not_not.mp hn.2⟩
    split
    · exact pi_start h _ hi
    · split
      · exact pi_start h _ hi
      · exact h

theorem tps_start {mem : BitVec 32 → BitVec 32} {fresh : Client → Prop} {U : Client → List (BitVec 32)} {K : Client → Prop} {w : Client → Option Walk}
    {st : Ptw.State} (ht : TPs mem fresh U K w st) (c : Client) (hp : (st.port c).pending = true) : TPs mem fresh U K w (st.start c) := by
  intro c' hK
  have h := ht c' hK
  unfold Ptw.State.start State.setPort
  dsimp only
  by_cases e : c' = c
  · rw [if_pos e]
    subst e
    refine ⟨fun hx => ?_, fun x hx hs => ?_, h.satp⟩
    · have := (h.idle hx).1; rw [hp] at this; cases this
    · obtain ⟨hr, hst⟩ := h.sent x hx hs
      refine ⟨hr, .inr (.inl ⟨rfl, rfl, ?_⟩)⟩
      rcases hst with a | a | a
      · exact a.2.2
      · rw [hp] at a; cases a.1
      · rw [hp] at a; cases a.1
  · rw [if_neg e]; exact h

theorem tps_select {mem : BitVec 32 → BitVec 32} {fresh : Client → Prop} {U : Client → List (BitVec 32)} {K : Client → Prop} {w : Client → Option Walk}
    {st : Ptw.State} (ht : TPs mem fresh U K w st) : TPs mem fresh U K w st.select := by
  unfold Ptw.State.select
  split
  · exact ht
  · split
    · rename_i hp; exact tps_start ht _ hp
    · split
      · rename_i hp; exact tps_start ht _ hp
      · exact ht

/-- An active walk is not touched by the arbiter. -/
theorem select_active {st : Ptw.State} (h : st.active = true) : st.select = st := by
  unfold Ptw.State.select; rw [if_pos (.inl h)]

theorem select_reqId (st : Ptw.State) : st.select.reqId = st.reqId := by
  unfold Ptw.State.select Ptw.State.start State.setPort
  split
  · rfl
  · split
    · rfl
    · split <;> rfl

theorem pi_granted {mem : BitVec 32 → BitVec 32} {fresh : Client → Prop} {st : Ptw.State} (h : PI mem fresh st) (id a : BitVec 32)
    (hi : st.issue = some a) : PI mem fresh (st.granted id) ∧ a = cur (st.granted id) := by
  unfold Ptw.State.issue at hi
  split at hi
  · rename_i ha
    cases hp : st.phase with
    | req1 =>
      rw [hp] at hi
      injection hi with hi
      have hq : (st.granted id).phase = .wait1 := by unfold Ptw.State.granted; rw [hp]
      refine ⟨⟨h.infl, ?_, ?_, ?_⟩, ?_⟩
      · rw [hq]; show st.active = true ↔ _; rw [ha]; simp
      · rw [hq]; show (some id).isSome = true ↔ _; simp
      · rw [hq]; intro e; rcases e with e | e <;> cases e
      · unfold cur; rw [hq]; exact hi.symm
    | req2 =>
      rw [hp] at hi
      injection hi with hi
      have hq : (st.granted id).phase = .wait2 := by unfold Ptw.State.granted; rw [hp]
      refine ⟨⟨h.infl, ?_, ?_, ?_⟩, ?_⟩
      · rw [hq]; show st.active = true ↔ _; rw [ha]; simp
      · rw [hq]; show (some id).isSome = true ↔ _; simp
      · intro _; exact h.ptr (.inl hp)
      · unfold cur; rw [hq]; exact hi.symm
    | idle => rw [hp] at hi; cases hi
    | wait1 => rw [hp] at hi; cases hi
    | wait2 => rw [hp] at hi; cases hi
  · cases hi

theorem pi_publish {mem : BitVec 32 → BitVec 32} {fresh : Client → Prop} {st : Ptw.State} (h : PI mem fresh st) (f : Bool) (x : BitVec 32) (sp : Bool) :
    PI mem fresh (st.publish f x sp) := by
  refine ⟨fun c => ?_, ?_, ?_, ?_⟩
  · unfold Ptw.State.publish State.setPort
    dsimp only
    by_cases e : c = st.owner
    · rw [if_pos e]; simp
    · rw [if_neg e]
      constructor
      · intro hx; exact absurd ((h.infl c).mp hx).2.symm e
      · intro hx; cases hx.1
  · unfold Ptw.State.publish; simp
  · unfold Ptw.State.publish; simp
  · intro hp
    unfold Ptw.State.publish at hp
    dsimp only at hp
    rcases hp with e | e <;> cases e

theorem tps_publish {mem : BitVec 32 → BitVec 32} {fresh : Client → Prop} {U : Client → List (BitVec 32)} {K : Client → Prop} {w : Client → Option Walk}
    {st : Ptw.State} (ht : TPs mem fresh U K w st) (h : PI mem fresh st) (ha : st.active = true) (f : Bool) (x : BitVec 32) (sp : Bool)
    (hok : fresh st.owner → if f then leafB mem (oreq st).satp (oreq st).vaddr = none else leafB mem (oreq st).satp (oreq st).vaddr = some (x, sp)) :
    TPs mem fresh U K w (st.publish f x sp) := by
  intro c hK
  have hc := ht c hK
  unfold Ptw.State.publish State.setPort
  dsimp only
  by_cases e : c = st.owner
  · rw [if_pos e]
    have hin : (st.port st.owner).inflight = true := (h.infl st.owner).mpr ⟨ha, rfl⟩
    rw [← e] at hin ⊢
    refine ⟨fun hx => ?_, fun y hy hs => ?_, hc.satp⟩
    · have := (hc.idle hx).2.1; rw [hin] at this; cases this
    · obtain ⟨hr, hst⟩ := hc.sent y hy hs
      have hpd : (st.port c).pending = false := by
        rcases hst with a | a | a
        · rw [hin] at a; cases a.2.1
        · exact a.1
        · exact a.1
      refine ⟨hr, .inr (.inr ⟨hpd, rfl, _, rfl, ?_, fun hF => ?_⟩)⟩
      · show (st.port c).req.vaddr = y.vaddr; rw [hr]
      · have := hok (by rw [← e]; exact hF)
        unfold oreq at this
        rw [← e, hr] at this
        unfold RespOk
        dsimp only
        rw [hr]
        exact this
  · rw [if_neg e]; exact hc

/-- Data arrives. -/
theorem memResp_ok {mem : BitVec 32 → BitVec 32} {fresh : Client → Prop} {U : Client → List (BitVec 32)} {K : Client → Prop} {w : Client → Option Walk}
    {st : Ptw.State} (ht : TPs mem fresh U K w st) (h : PI mem fresh st) (id x : BitVec 32)
    (hx : st.reqId = some id → fresh st.owner → x = mem (cur st)) :
    PI mem fresh (st.memResp id x) ∧ TPs mem fresh U K w (st.memResp id x) ∧
    (∀ i, (st.memResp id x).reqId = some i → st.reqId = some i ∧ i ≠ id ∧
      (st.memResp id x).phase = st.phase ∧ oreq (st.memResp id x) = oreq st ∧ (st.memResp id x).pte1 = st.pte1 ∧ (st.memResp id x).active = st.active) := by
  unfold Ptw.State.memResp
  by_cases hm : st.active = true ∧ st.reqId = some id
  · rw [if_pos hm]
    have hx := hx hm.2
    have hpub : ∀ (f : Bool) (y : BitVec 32) (sp : Bool),
        (fresh st.owner → if f then leafB mem (oreq st).satp (oreq st).vaddr = none else leafB mem (oreq st).satp (oreq st).vaddr = some (y, sp)) →
        PI mem fresh (st.publish f y sp) ∧ TPs mem fresh U K w (st.publish f y sp) ∧
        (∀ i, (st.publish f y sp).reqId = some i → st.reqId = some i ∧ i ≠ id ∧
          (st.publish f y sp).phase = st.phase ∧ oreq (st.publish f y sp) = oreq st ∧ (st.publish f y sp).pte1 = st.pte1 ∧ (st.publish f y sp).active = st.active) := by
      intro f y sp hok
      exact ⟨pi_publish h f y sp, tps_publish ht h hm.1 f y sp hok, fun i hi => by cases hi⟩
    have hw : st.phase = .wait1 ∨ st.phase = .wait2 := h.rid.mp (by rw [hm.2]; rfl)
    rcases hw with hp | hp
    · rw [hp] at hpub ⊢
      dsimp only
      have hcur : cur st = addr1 (oreq st) := by unfold cur; rw [hp]
      have hl : ∀ q : Req, leafB mem q.satp q.vaddr = (if bad (mem (addr1 q)) then none
          else if isLeaf (mem (addr1 q)) then (if (mem (addr1 q) >>> 10) &&& 0x3FF#32 ≠ 0#32 then none else some (mem (addr1 q), true))
          else if bad (mem (addr2 (mem (addr1 q)) q.vaddr)) || !isLeaf (mem (addr2 (mem (addr1 q)) q.vaddr)) then none
            else some (mem (addr2 (mem (addr1 q)) q.vaddr), false)) := fun _ => rfl
      split
      · rename_i hb
        apply hpub
        intro hF
        rw [if_pos rfl, hl, ← hcur, ← hx hF, if_pos hb]
      · rename_i hb
        split
        · rename_i hlf
          split
          · rename_i hal
            apply hpub
            intro hF
            rw [if_pos rfl, hl, ← hcur, ← hx hF, if_neg hb, if_pos hlf, if_pos hal]
          · rename_i hal
            apply hpub
            intro hF
            rw [if_neg (by decide), hl, ← hcur, ← hx hF, if_neg hb, if_pos hlf, if_neg hal]
        · rename_i hlf
          refine ⟨⟨h.infl, ?_, ?_, ?_⟩, ht, fun i hi => (by cases hi)⟩
          · show st.active = true ↔ Phase.req2 ≠ .idle
            rw [hm.1]; simp
          · show (none : Option (BitVec 32)).isSome = true ↔ _
            simp
          · intro _ hF
            have hF : fresh st.owner := hF
            refine ⟨?_, by simpa using hb, by simpa using hlf⟩
            show x = mem (addr1 (oreq st))
            rw [hx hF, hcur]
    · rw [hp] at hpub ⊢
      dsimp only
      have hcur : cur st = addr2 st.pte1 (oreq st).vaddr := by unfold cur; rw [hp]
      have hl : fresh st.owner → leafB mem (oreq st).satp (oreq st).vaddr = (if bad x || !isLeaf x then none else some (x, false)) := by
        intro hF
        obtain ⟨a1, a2, a3⟩ := h.ptr (.inr hp) hF
        have : x = mem (addr2 (mem (addr1 (oreq st))) (oreq st).vaddr) := by rw [hx hF, hcur, a1]
        rw [this]
        rw [a1] at a2 a3
        unfold leafB
        dsimp only
        rw [a2, a3]
        rfl
      split
      · rename_i hb
        apply hpub
        intro hF
        rw [if_pos rfl, hl hF, if_pos hb]
      · rename_i hb
        apply hpub
        intro hF
        rw [if_neg (by decide), hl hF, if_neg hb]
  · rw [if_neg hm]
    have hne : ∀ i, st.reqId = some i → i ≠ id := by
      intro i hi e
      apply hm
      subst e
      refine ⟨h.act.mpr (fun e => ?_), hi⟩
      rcases h.rid.mp (by rw [hi]; rfl) with a | a
      · rw [e] at a; cases a
      · rw [e] at a; cases a
    split
    · exact ⟨⟨h.infl, h.act, h.rid, h.ptr⟩, ht, fun i hi => ⟨hi, hne i hi, rfl, rfl, rfl, rfl⟩⟩
    · exact ⟨h, ht, fun i hi => ⟨hi, hne i hi, rfl, rfl, rfl, rfl⟩⟩

theorem retry_ok {mem : BitVec 32 → BitVec 32} {fresh : Client → Prop} {U : Client → List (BitVec 32)} {K : Client → Prop} {w : Client → Option Walk}
    {st : Ptw.State} (ht : TPs mem fresh U K w st) (h : PI mem fresh st) :
    PI mem fresh st.retry ∧ TPs mem fresh U K w st.retry ∧ st.retry.reqId = none := by
  unfold Ptw.State.retry
  split
  · rename_i ha
    refine ⟨⟨h.infl, ?_, ?_, ?_⟩, ht, rfl⟩
    · dsimp only
      rw [h.act]
      cases st.phase <;> simp
    · dsimp only
      cases st.phase <;> simp
    · dsimp only
      intro hp
      apply h.ptr
      cases hq : st.phase <;> rw [hq] at hp <;> simp at hp ⊢
  · rename_i ha
    refine ⟨h, ht, ?_⟩
    cases hr : st.reqId with
    | none => rfl
    | some i =>
      exfalso
      apply ha
      apply h.act.mpr
      intro e
      rcases h.rid.mp (by rw [hr]; rfl) with a | a
      · rw [e] at a; cases a
      · rw [e] at a; cases a

theorem flush_ok {mem : BitVec 32 → BitVec 32} {fresh : Client → Prop} {st : Ptw.State} (h : PI mem fresh st) (c : Client) :
    PI mem fresh (st.flush c) ∧ (∀ c', c' ≠ c → (st.flush c).port c' = st.port c') ∧ Idle ((st.flush c).port c) ∧
    ((st.flush c).active = true → st.active = true ∧ (st.flush c).owner = st.owner ∧ st.owner ≠ c ∧ (st.flush c).phase = st.phase ∧ (st.flush c).pte1 = st.pte1) ∧
    (∀ i, (st.flush c).reqId = some i → st.reqId = some i ∧ (st.flush c).active = true) := by
  have hact : ∀ i, st.reqId = some i → st.active = true := by
    intro i hi
    apply h.act.mpr
    intro e
    rcases h.rid.mp (by rw [hi]; rfl) with a | a
    · rw [e] at a; cases a
    · rw [e] at a; cases a
  unfold Ptw.State.flush State.setPort
  dsimp only
  by_cases hm : st.active = true ∧ st.owner = c
  · rw [if_pos hm]
    refine ⟨⟨fun c' => ?_, ?_, ?_, ?_⟩, fun c' hc => ?_, ?_, fun hx => (by cases hx), fun i hi => (by cases hi)⟩
    · dsimp only
      by_cases e : c' = c
      · rw [if_pos e]; simp
      · rw [if_neg e]
        constructor
        · intro hx; exact absurd (((h.infl c').mp hx).2.symm.trans hm.2) e
        · intro hx; cases hx.1
    · simp
    · simp
    · intro hp; rcases hp with e | e <;> cases e
    · dsimp only; rw [if_neg hc]
    · dsimp only; rw [if_pos rfl]; exact ⟨rfl, rfl, rfl⟩
  · rw [if_neg hm]
    refine ⟨⟨fun c' => ?_, h.act, h.rid, fun hp hF => ?_⟩, fun c' hc => ?_, ?_, fun hx => ⟨hx, rfl, fun e => hm ⟨hx, e⟩, rfl, rfl⟩, fun i hi => ⟨hi, hact i hi⟩⟩
    · dsimp only
      by_cases e : c' = c
      · rw [if_pos e]
        constructor
        · intro hx; cases hx
        · intro hx; exact absurd ⟨hx.1, hx.2.trans e⟩ hm
      · rw [if_neg e]; exact h.infl c'
    · have := h.ptr hp hF
      dsimp only at hp ⊢
      unfold oreq
      dsimp only
      have hne : st.owner ≠ c := by
        intro e
        apply hm
        refine ⟨h.act.mpr (fun e' => ?_), e⟩
        rcases hp with a | a <;> rw [e'] at a <;> cases a
      rw [if_neg hne]
      exact this
    · dsimp only; rw [if_neg hc]
    · dsimp only; rw [if_pos rfl]; exact ⟨rfl, rfl, rfl⟩

/-- Freshness may change for clients that are not walking. -/
theorem pi_fresh {mem : BitVec 32 → BitVec 32} {f g : Client → Prop} {st : Ptw.State} (h : PI mem f st)
    (hg : st.active = true → g st.owner → f st.owner) : PI mem g st := by
  refine ⟨h.infl, h.act, h.rid, fun hp hF => h.ptr hp (hg ?_ hF)⟩
  apply h.act.mpr
  intro e
  rcases hp with a | a <;> rw [e] at a <;> cases a

end Verif.PtwInv

import Verif.Proofs.PtwTwin

/-
The packed walker against the walker, continued: the relation between the two states and why a cycle keeps it.
-/
namespace Verif.PtwTwin

open Verif.Ptw (Client Phase)
open Verif.PtwKernel
open Verif.PtwBlock (Two Req Resp MemClient WalkClient MemIn WalkIn PortIn Owner Event Feedback In MemOut WalkOut Out State back other)

/-- The number of a phase. -/
def code : Phase → BitVec 8
  | .idle => 0#8
  | .req1 => 1#8
  | .wait1 => 2#8
  | .req2 => 3#8
  | .wait2 => 4#8

/-- Same memory client up to what the packed form keeps. -/
structure MEq (a b : MemClient) : Prop where
  pending : a.pending = b.pending
  inflight : a.inflight = b.inflight
  addr : a.addr &&& 0xFFFFFFFC#32 = b.addr &&& 0xFFFFFFFC#32
  respValid : a.respValid = b.respValid
  respData : a.respData &&& 0xFFFFFCFF#32 = b.respData &&& 0xFFFFFCFF#32

/-- Same walk client up to what the packed form keeps. -/
structure WEq (a b : WalkClient) : Prop where
  pending : a.pending = b.pending
  inflight : a.inflight = b.inflight
  vaddr : a.req.vaddr &&& 0xFFFFF000#32 = b.req.vaddr &&& 0xFFFFF000#32
  satp : a.req.satp &&& 0x3FFFFF#32 = b.req.satp &&& 0x3FFFFF#32
  respValid : a.respValid = b.respValid
  fault : a.resp.fault = b.resp.fault
  leaf : a.resp.leaf &&& 0xFFFFFCFF#32 = b.resp.leaf &&& 0xFFFFFCFF#32
  level : a.resp.level &&& 1#8 = b.resp.level &&& 1#8

/-- The two walkers in the same state. -/
structure Rel (k : KState) (b : State) : Prop where
  mem : ∀ c, MEq (k.mem.get c) (b.mem.get c)
  walk : ∀ c, WEq (k.walk.get c) (b.walk.get c)
  phase : k.phase = code b.phase
  active : k.active = b.active
  owner : b.active = true → k.owner = b.owner
  rr : k.rr = b.rr
  pte1 : k.pte1 &&& 0xFFFFFC00#32 = b.pte1 &&& 0xFFFFFC00#32

/-- The walker waits for an answer. -/
def waitsP (p : Phase) : Bool := p == .wait1 || p == .wait2

/-- What holds of the walker at any time. -/
structure Inv (b : State) : Prop where
  act : b.active = (b.phase != .idle)
  wid : b.idValid = true → waitsP b.phase = true
  own : b.walk.i.inflight = (b.active && b.owner == .itlb)
  vad : ∀ c, (b.walk.get c).respValid = true → (b.walk.get c).resp.vaddr = (b.walk.get c).req.vaddr
  level : ∀ c, (b.walk.get c).resp.level &&& 1#8 = (b.walk.get c).resp.level

theorem get_set {α : Type} (x : Two α) (c c' : Client) (v : α) :
    (x.set c v).get c' = if c' = c then v else x.get c' := by
  cases c <;> cases c' <;> rfl

theorem get_mk {α : Type} (a b : α) (c : Client) : (Two.mk a b).get c = if c = .dtlb then a else b := by
  cases c <;> rfl

theorem kOther_eq (c : Client) : kOther c = other c := by cases c <;> rfl

theorem and_self_mask {w : Nat} (v m : BitVec w) : v &&& m &&& m = v &&& m := by
  rw [BitVec.and_assoc, BitVec.and_self]

/-! ### The ports -/

theorem mem_inputs {a b : MemClient} (h : MEq a b) (i : MemIn) : MEq (kMemInputs a (pMem i)) (b.inputs i) := by
  obtain ⟨h1, h2, h3, h4, h5⟩ := h
  unfold kMemInputs MemClient.inputs pMem
  cases hc : i.consumed <;> cases hv : i.valid <;> cases hp : b.pending <;> cases hi : b.inflight <;>
    simp only [hp, hi] at h1 h2 <;>
    simp only [hc, hv, hp, hi, h1, h2, Bool.false_eq_true, if_false, if_true, Bool.or_false, Bool.or_true] <;>
    exact ⟨by simp [*], by simp [*], by first | exact h3 | exact and_self_mask _ _, by first | rfl | exact h4, h5⟩

theorem walk_inputs {a b : WalkClient} (h : WEq a b) (i : WalkIn) : WEq (kWalkInputs a (pWalk i)) (b.inputs i) := by
  obtain ⟨h1, h2, h3, h3', h4, h5, h6, h7⟩ := h
  unfold kWalkInputs WalkClient.inputs pWalk
  cases hc : i.consumed <;> cases hv : i.valid <;> cases hp : b.pending <;> cases hi : b.inflight <;>
    simp only [hp, hi] at h1 h2 <;>
    simp only [hc, hv, hp, hi, h1, h2, Bool.false_eq_true, if_false, if_true, Bool.or_false, Bool.or_true] <;>
    exact ⟨by simp [*], by simp [*], by first | exact h3 | exact and_self_mask _ _,
      by first | exact h3' | exact and_self_mask _ _, by first | rfl | exact h4, h5, h6, h7⟩

theorem rel_inputs {k : KState} {b : State} (h : Rel k b) (p : PortIn) : Rel (k.inputs (pPort p)) (b.inputs p) :=
  { h with
    mem := fun c => by
      cases c
      · exact mem_inputs (h.mem .dtlb) _
      · exact mem_inputs (h.mem .itlb) _
    walk := fun c => by
      cases c
      · exact walk_inputs (h.walk .dtlb) _
      · exact walk_inputs (h.walk .itlb) _ }

theorem winputs_inflight (w : WalkClient) (i : WalkIn) : (w.inputs i).inflight = w.inflight := by
  unfold WalkClient.inputs
  cases i.consumed <;> cases i.valid <;> cases hp : w.pending <;> cases hi : w.inflight <;> simp [hp, hi]

theorem winputs_vad {w : WalkClient} (i : WalkIn) (h : w.respValid = true → w.resp.vaddr = w.req.vaddr) :
    (w.inputs i).respValid = true → (w.inputs i).resp.vaddr = (w.inputs i).req.vaddr := by
  unfold WalkClient.inputs
  cases i.consumed <;> cases i.valid <;> cases hp : w.pending <;> cases hi : w.inflight <;> simp [hp, hi] <;> exact h

theorem winputs_level (w : WalkClient) (i : WalkIn) : (w.inputs i).resp = w.resp := by
  unfold WalkClient.inputs
  cases i.consumed <;> cases i.valid <;> cases hp : w.pending <;> cases hi : w.inflight <;> simp [hp, hi]

theorem inv_inputs {b : State} (h : Inv b) (p : PortIn) : Inv (b.inputs p) where
  act := h.act
  wid := h.wid
  own := by
    show (b.walk.i.inputs p.walk.i).inflight = _
    rw [winputs_inflight]; exact h.own
  vad c := by
    cases c
    · exact winputs_vad _ (h.vad .dtlb)
    · exact winputs_vad _ (h.vad .itlb)
  level c := by
    cases c
    · show (b.walk.d.inputs p.walk.d).resp.level &&& _ = (b.walk.d.inputs p.walk.d).resp.level
      rw [winputs_level]; exact h.level .dtlb
    · show (b.walk.i.inputs p.walk.i).resp.level &&& _ = (b.walk.i.inputs p.walk.i).resp.level
      rw [winputs_level]; exact h.level .itlb

/-! ### Choosing a walk -/

theorem code_idle (p : Phase) : (code p != 0#8) = decide (p ≠ .idle) := by cases p <;> rfl

/-- Starting a walk in the packed walker. -/
def kStart (s : KState) (o : Client) : KState :=
  { s with
    walk := s.walk.set o { s.walk.get o with pending := false, inflight := true }
    owner := o, active := true, phase := 1#8, pte1 := 0#32, rr := kOther o }

theorem rel_start {k : KState} {b : State} (h : Rel k b) (c : Client) :
    Rel (kStart k c) (b.start c) where
  mem := h.mem
  walk c' := by
    show WEq ((k.walk.set c _).get c') ((b.walk.set c _).get c')
    rw [get_set, get_set]
    split
    · have := h.walk c
      exact { this with pending := rfl, inflight := rfl }
    · exact h.walk c'
  phase := rfl
  active := rfl
  owner _ := rfl
  rr := kOther_eq c
  pte1 := rfl

theorem kselect_eq (s : KState) : s.select =
    if s.active || s.phase != 0#8 then s
    else if (s.walk.get s.rr).pending then kStart s s.rr
    else if (s.walk.get (kOther s.rr)).pending then kStart s (kOther s.rr)
    else s := by
  unfold KState.select
  split
  · rfl
  · cases h1 : (s.walk.get s.rr).pending
    · cases h2 : (s.walk.get (kOther s.rr)).pending
      · rfl
      · rfl
    · rfl

theorem rel_select {k : KState} {b : State} (h : Rel k b) : Rel k.select b.select := by
  rw [kselect_eq]
  unfold State.select
  rw [h.active, h.phase, code_idle, h.rr, (h.walk _).pending, kOther_eq, (h.walk _).pending]
  split
  · exact h
  · split
    · exact rel_start h _
    · split
      · exact rel_start h _
      · exact h

theorem inv_start {b : State} (h : Inv b) (hn : b.active = false) (c : Client) : Inv (b.start c) where
  act := rfl
  wid hv := by
    have h1 := h.wid hv
    have h2 := h.act
    rw [hn] at h2
    cases hp : b.phase <;> rw [hp] at h1 h2 <;> first | (cases h1; done) | (cases h2; done)
  own := by
    have := h.own
    rw [hn] at this
    cases c
    · exact this
    · rfl
  vad c' := by
    show ((b.walk.set c _).get c').respValid = true → ((b.walk.set c _).get c').resp.vaddr = ((b.walk.set c _).get c').req.vaddr
    rw [get_set]
    split
    · exact h.vad c
    · exact h.vad c'
  level c' := by
    show ((b.walk.set c _).get c').resp.level &&& _ = ((b.walk.set c _).get c').resp.level
    rw [get_set]
    split
    · exact h.level c
    · exact h.level c'

theorem inv_select {b : State} (h : Inv b) : Inv b.select := by
  unfold State.select
  split
  · exact h
  · rename_i hn
    have ha : b.active = false := by
      cases hb : b.active
      · rfl
      · simp [hb] at hn
    split
    · exact inv_start h ha _
    · split
      · exact inv_start h ha _
      · exact h

/-! ### The grant -/

theorem rel_memGranted {k : KState} {b : State} (h : Rel k b) (c : Client) : Rel (k.memGranted c) (b.memGranted c) :=
  { h with
    mem := fun c' => by
      show MEq ((k.mem.set c _).get c') ((b.mem.set c _).get c')
      rw [get_set, get_set]
      split
      · exact { h.mem c with pending := rfl, inflight := rfl }
      · exact h.mem c' }

theorem rel_walkGranted {k : KState} {b : State} (h : Rel k b) (g : BitVec 64) :
    Rel (k.walkGranted 1#64) (b.walkGranted g) :=
  { h with
    phase := by
      show (if k.phase = 1#8 then 2#8 else if k.phase = 3#8 then 4#8 else k.phase) = _
      rw [h.phase]
      unfold State.walkGranted
      cases b.phase <;> rfl }

theorem rel_grant {k : KState} {b : State} (h : Rel k b) (f : Feedback) (m : Bool) (id : BitVec 64) :
    Rel (k.grant (pFeedback f m id)) (b.grant f) := by
  unfold KState.grant State.grant
  show Rel (if f.grantValid then match f.grantOwner with
    | .dtlb => k.memGranted .dtlb
    | .itlb => k.memGranted .itlb
    | .walk => k.walkGranted 1#64
    | .none => k
  else k) _
  cases f.grantValid
  · exact h
  · cases f.grantOwner
    · exact h
    · exact rel_memGranted h _
    · exact rel_memGranted h _
    · exact rel_walkGranted h _

/-- A grant for the walker is due. -/
def Due (b : State) (f : Feedback) : Prop := f.grantValid = true → f.grantOwner = .walk → b.read.isSome = true

theorem inv_grant {b : State} (h : Inv b) {f : Feedback} (hd : Due b f) : Inv (b.grant f) := by
  unfold Due at hd
  unfold State.grant
  cases hv : f.grantValid
  · exact h
  · cases ho : f.grantOwner
    · exact h
    · exact { h with }
    · exact { h with }
    · have hr := hd hv ho
      unfold State.read at hr
      have ha := h.act
      refine { h with act := ?_, wid := ?_ }
      · show b.active = ((State.walkGranted b _).phase != .idle)
        rw [ha]; unfold State.walkGranted
        cases b.phase <;> rfl
      · intro _
        show waitsP (State.walkGranted b _).phase = true
        unfold State.walkGranted
        cases hp : b.phase <;> simp [hp] at hr ⊢ <;> rfl

/-! ### Events -/

theorem rel_memResp {k : KState} {b : State} (h : Rel k b) (c : Client) (v : BitVec 32) :
    Rel (k.memResp c (v &&& 0xFFFFFCFF#32)) (b.memResp c v) :=
  { h with
    mem := fun c' => by
      show MEq ((k.mem.set c _).get c') ((b.mem.set c _).get c')
      rw [get_set, get_set]
      split
      · exact { h.mem c with respValid := rfl, respData := and_self_mask _ _, inflight := rfl }
      · exact h.mem c' }

/-- Publishing in the packed walker. -/
def kPublish (s : KState) (fault : Bool) (leaf : BitVec 32) (level : BitVec 8) : KState :=
  let w := s.walk.get s.owner
  { s with
    walk := s.walk.set s.owner { w with
      inflight := false, respValid := true
      resp := { fault := fault, vaddr := w.req.vaddr, leaf := leaf, level := level } }
    active := false, phase := 0#8, idValid := false, id := 0#64 }

theorem rel_publish {k : KState} {b : State} (h : Rel k b) (ha : b.active = true) (f : Bool) {x y : BitVec 32}
    (hxy : x &&& 0xFFFFFCFF#32 = y &&& 0xFFFFFCFF#32) (l : BitVec 8) : Rel (kPublish k f x l) (b.publish f y l) where
  mem := h.mem
  walk c' := by
    show WEq ((k.walk.set k.owner _).get c') ((b.walk.set b.owner _).get c')
    rw [h.owner ha, get_set, get_set]
    split
    · exact { h.walk b.owner with respValid := rfl, inflight := rfl, fault := rfl, leaf := hxy, level := rfl }
    · exact h.walk c'
  phase := rfl
  active := rfl
  owner := fun hc => Bool.noConfusion (show false = true from hc)
  rr := h.rr
  pte1 := h.pte1

theorem inv_publish {b : State} (h : Inv b) (ha : b.active = true) (f : Bool) (y : BitVec 32) {l : BitVec 8}
    (hl : l &&& 1#8 = l) : Inv (b.publish f y l) where
  act := rfl
  wid := fun hc => Bool.noConfusion (show false = true from hc)
  own := by
    have := h.own
    show (b.walk.set b.owner _).i.inflight = _
    cases ho : b.owner
    · rw [ho, ha] at this
      exact this
    · rfl
  vad c' := by
    show ((b.walk.set b.owner _).get c').respValid = true → ((b.walk.set b.owner _).get c').resp.vaddr =
      ((b.walk.set b.owner _).get c').req.vaddr
    rw [get_set]
    split
    · exact fun _ => rfl
    · exact h.vad c'
  level c' := by
    show ((b.walk.set b.owner _).get c').resp.level &&& _ = ((b.walk.set b.owner _).get c').resp.level
    rw [get_set]
    split
    · exact hl
    · exact h.level c'

theorem pte_low (v : BitVec 32) (i : Nat) (hi : i < 8) : (v &&& 0xFFFFFCFF#32).getLsbD i = v.getLsbD i := by
  rw [BitVec.getLsbD_and, mFCFF _ (by omega)]; simp [hi]

theorem pte_high (v : BitVec 32) : (v &&& 0xFFFFFCFF#32) >>> 10 = v >>> 10 := by
  apply BitVec.eq_of_getLsbD_eq
  intro i hi
  rw [BitVec.getLsbD_ushiftRight, BitVec.getLsbD_ushiftRight, BitVec.getLsbD_and]
  by_cases h : 10 + i < 32
  · rw [mFCFF _ h]; simp
  · simp [BitVec.getLsbD_of_ge v (10 + i) (by omega)]

theorem pte_ppn (v : BitVec 32) : v &&& 0xFFFFFCFF#32 &&& 0xFFFFFC00#32 = v &&& 0xFFFFFC00#32 := by
  rw [BitVec.and_assoc]; rfl

theorem kwalkResp_eq (s : KState) (id : BitVec 64) (pte : BitVec 32) : s.walkResp id pte =
    if s.credit ≠ 0#32 ∧ s.isActiveReq id = false then { s with credit := s.credit - 1#32 }
    else if s.isActiveReq id = false then s
    else if s.phase = 2#8 then
      if !pte.getLsbD 0 || (!pte.getLsbD 1 && pte.getLsbD 2) then kPublish s true 0#32 0#8
      else if pte.getLsbD 1 || pte.getLsbD 3 then
        if (pte >>> 10) &&& 0x3FF#32 ≠ 0#32 then kPublish s true 0#32 0#8 else kPublish s false pte 1#8
      else { s with pte1 := pte, phase := 3#8, idValid := false, id := 0#64 }
    else if s.phase = 4#8 then
      if !pte.getLsbD 0 || (!pte.getLsbD 1 && pte.getLsbD 2) || !(pte.getLsbD 1 || pte.getLsbD 3) then
        kPublish s true 0#32 0#8
      else kPublish s false pte 0#8
    else kPublish s true 0#32 0#8 := rfl

theorem isActive_active {b : State} {y : BitVec 64} (h : ¬ b.isActiveReq y = false) :
    b.active = true ∧ b.idValid = true := by
  unfold State.isActiveReq at h
  cases ha : b.active <;> cases hv : b.idValid <;> simp [ha, hv] at h ⊢

theorem rel_walkResp {k : KState} {b : State} (h : Rel k b) {x y : BitVec 64} (v : BitVec 32)
    (hm : k.isActiveReq x = b.isActiveReq y) :
    Rel (k.walkResp x (v &&& 0xFFFFFCFF#32)) (b.walkResp y v) := by
  rw [kwalkResp_eq]
  unfold State.walkResp
  rw [hm, pte_low _ _ (by omega), pte_low _ _ (by omega), pte_low _ _ (by omega),
    pte_low _ _ (by omega), pte_high]
  by_cases hn : b.isActiveReq y = false
  · rw [if_pos hn, if_pos hn]
    split <;> split <;> exact { h with }
  have hn1 : ¬ (k.credit ≠ 0#32 ∧ b.isActiveReq y = false) := fun hc => hn hc.2
  have hn2 : ¬ (b.credit ≠ 0#32 ∧ b.isActiveReq y = false) := fun hc => hn hc.2
  rw [if_neg hn1, if_neg hn2, if_neg hn, if_neg hn]
  have ha := (isActive_active hn).1
  have hk := h.phase
  cases hp : b.phase <;> rw [hp] at hk
  · rw [if_neg (by rw [hk]; decide), if_neg (by rw [hk]; decide)]
    exact rel_publish h ha _ rfl _
  · rw [if_neg (by rw [hk]; decide), if_neg (by rw [hk]; decide)]
    exact rel_publish h ha _ rfl _
  · rw [if_pos (by rw [hk]; rfl)]
    dsimp only
    split
    · exact rel_publish h ha _ rfl _
    · split
      · split
        · exact rel_publish h ha _ rfl _
        · exact rel_publish h ha _ (and_self_mask _ _) _
      · exact { h with
          phase := rfl, pte1 := pte_ppn v }
  · rw [if_neg (by rw [hk]; decide), if_neg (by rw [hk]; decide)]
    exact rel_publish h ha _ rfl _
  · rw [if_neg (by rw [hk]; decide), if_pos (by rw [hk]; rfl)]
    dsimp only
    split
    · exact rel_publish h ha _ rfl _
    · exact rel_publish h ha _ (and_self_mask _ _) _

theorem inv_walkResp {b : State} (h : Inv b) (y : BitVec 64) (v : BitVec 32) : Inv (b.walkResp y v) := by
  unfold State.walkResp
  dsimp only
  split
  · exact { h with }
  · split
    · exact h
    · rename_i hn
      have ha := (isActive_active hn).1
      cases hp : b.phase
      · exact inv_publish h ha _ _ rfl
      · exact inv_publish h ha _ _ rfl
      · dsimp only
        split
        · exact inv_publish h ha _ _ rfl
        · split
          · split
            · exact inv_publish h ha _ _ rfl
            · exact inv_publish h ha _ _ rfl
          · exact { h with
              act := by rw [ha]; rfl
              wid := fun hc => Bool.noConfusion (show false = true from hc) }
      · exact inv_publish h ha _ _ rfl
      · dsimp only
        split
        · exact inv_publish h ha _ _ rfl
        · exact inv_publish h ha _ _ rfl

theorem kBack_code (p : Phase) : kBack (code p) = code (back p) := by cases p <;> rfl

theorem rel_walkReplay {k : KState} {b : State} (h : Rel k b) {x y : BitVec 64} (r : BitVec 8)
    (hm : k.isActiveReq x = b.isActiveReq y) :
    Rel (k.walkReplay x r) (b.walkReplay y r) := by
  unfold KState.walkReplay State.walkReplay
  rw [hm]
  by_cases hn : b.isActiveReq y = false
  · rw [if_pos hn, if_pos hn]
    split <;> split <;> exact { h with }
  have hn1 : ¬ (k.credit ≠ 0#32 ∧ b.isActiveReq y = false) := fun hc => hn hc.2
  have hn2 : ¬ (b.credit ≠ 0#32 ∧ b.isActiveReq y = false) := fun hc => hn hc.2
  rw [if_neg hn1, if_neg hn2, if_neg hn, if_neg hn]
  have ha := (isActive_active hn).1
  exact { h with
    walk := fun c' => by
      show WEq ((k.walk.set k.owner _).get c') ((b.walk.set b.owner _).get c')
      rw [h.owner ha, get_set, get_set]
      split
      · exact { h.walk b.owner with inflight := rfl }
      · exact h.walk c'
    phase := by
      show (if r = 2#8 then kBack k.phase else k.phase) = code (if r = 2#8 then back b.phase else b.phase)
      rw [h.phase, kBack_code]
      split <;> rfl }

theorem back_idle (p : Phase) : (back p != .idle) = (p != .idle) := by cases p <;> rfl

theorem inv_walkReplay {b : State} (h : Inv b) (y : BitVec 64) (r : BitVec 8)
    (hr : b.isActiveReq y = true → b.owner = .dtlb) : Inv (b.walkReplay y r) := by
  unfold State.walkReplay
  split
  · exact { h with }
  · split
    · exact h
    · rename_i hn
      have ha := (isActive_active hn).1
      have ho := hr (by simpa using hn)
      have hown := h.own
      rw [ho, ha] at hown
      exact
        { act := by
            show b.active = ((if r = 2#8 then back b.phase else b.phase) != .idle)
            split
            · rw [back_idle]; exact h.act
            · exact h.act
          wid := fun hc => Bool.noConfusion (show false = true from hc)
          own := by
            show (b.walk.set b.owner _).i.inflight = (b.active && b.owner == .itlb)
            rw [ho, ha]; exact hown
          vad := fun c' => by
            show ((b.walk.set b.owner _).get c').respValid = true → ((b.walk.set b.owner _).get c').resp.vaddr =
              ((b.walk.set b.owner _).get c').req.vaddr
            rw [get_set]
            split
            · exact h.vad _
            · exact h.vad c'
          level := fun c' => by
            show ((b.walk.set b.owner _).get c').resp.level &&& _ = ((b.walk.set b.owner _).get c').resp.level
            rw [get_set]
            split
            · exact h.level _
            · exact h.level c' }

/-- The match bit does for this event. -/
def Told (k : KState) (b : State) (x : BitVec 64) (e : Event) : Prop :=
  e.valid = true → e.owner = .walk → k.isActiveReq x = b.isActiveReq e.id

/-- A replay of the walk is one the packed form can follow. -/
def Mild (b : State) (e : Event) : Prop :=
  e.valid = true → e.owner = .walk → e.replay ≠ 0#8 → b.isActiveReq e.id = true → b.owner = .dtlb

theorem rel_event {k : KState} {b : State} (h : Rel k b) {e : Event} {m : Bool} {id : BitVec 64}
    (hm : Told k b (if m then id else id ^^^ 1#64) e) : Rel (k.event (pEvent e m id)) (b.event e) := by
  unfold KState.event State.event pEvent
  dsimp only
  cases hv : e.valid
  · exact h
  · simp only [↓reduceIte]
    cases ho : e.owner
    · exact h
    · dsimp only
      split
      · exact rel_memResp h _ _
      · exact h
    · dsimp only
      split
      · exact rel_memResp h _ _
      · exact h
    · dsimp only
      split
      · exact rel_walkResp h _ (hm hv ho)
      · exact rel_walkReplay h _ (hm hv ho)

theorem inv_event {b : State} (h : Inv b) {e : Event} (hm : Mild b e) : Inv (b.event e) := by
  unfold State.event
  cases hv : e.valid
  · exact h
  · simp only [↓reduceIte]
    cases ho : e.owner
    · exact h
    · dsimp only
      split
      · exact { h with }
      · exact h
    · dsimp only
      split
      · exact { h with }
      · exact h
    · dsimp only
      split
      · exact inv_walkResp h _ _
      · rename_i hr
        exact inv_walkReplay h _ _ (hm hv ho hr)

/-! ### Wake-ups -/

theorem rel_retryMem {k : KState} {b : State} (h : Rel k b) (c : Client) : Rel (k.retryMem c) (b.retryMem c) := by
  unfold KState.retryMem State.retryMem
  rw [(h.mem c).inflight]
  split
  · exact { h with
      mem := fun c' => by
        show MEq ((k.mem.set c _).get c') ((b.mem.set c _).get c')
        rw [get_set, get_set]
        split
        · exact { h.mem c with pending := rfl, inflight := rfl }
        · exact h.mem c' }
  · exact h

theorem inv_retryMem {b : State} (h : Inv b) (c : Client) : Inv (b.retryMem c) := by
  unfold State.retryMem
  split
  · exact { h with }
  · exact h

theorem rel_retryWalk {k : KState} {b : State} (h : Rel k b) : Rel k.retryWalk b.retryWalk := by
  unfold KState.retryWalk State.retryWalk
  cases ha : b.active <;> rw [show k.active = _ from h.active.trans ha]
  · exact h
  · exact { h with
      phase := by
        show kBack k.phase = code (back b.phase)
        rw [h.phase, kBack_code]
      active := rfl
      owner := fun _ => h.owner ha }

theorem inv_retryWalk {b : State} (h : Inv b) : Inv b.retryWalk := by
  unfold State.retryWalk
  split
  · exact { h with
      act := by
        show b.active = (back b.phase != .idle)
        rw [back_idle]; exact h.act
      wid := fun hc => Bool.noConfusion (show false = true from hc) }
  · exact h

theorem rel_wakeups {k : KState} {b : State} (h : Rel k b) (f : Feedback) (m : Bool) (id : BitVec 64) :
    Rel (k.wakeups (pFeedback f m id)) (b.wakeups f) := by
  unfold KState.wakeups State.wakeups pFeedback
  dsimp only
  cases f.wakeD <;> cases f.wakeI <;> cases f.wakeW <;>
    simp only [Bool.false_eq_true, if_false, if_true] <;>
    first
      | exact h
      | exact rel_retryMem h _
      | exact rel_retryWalk h
      | exact rel_retryMem (rel_retryMem h _) _
      | exact rel_retryWalk (rel_retryMem h _)
      | exact rel_retryWalk (rel_retryMem (rel_retryMem h _) _)

theorem inv_wakeups {b : State} (h : Inv b) (f : Feedback) : Inv (b.wakeups f) := by
  unfold State.wakeups
  dsimp only
  cases f.wakeD <;> cases f.wakeI <;> cases f.wakeW <;>
    simp only [Bool.false_eq_true, if_false, if_true] <;>
    first
      | exact h
      | exact inv_retryMem h _
      | exact inv_retryWalk h
      | exact inv_retryMem (inv_retryMem h _) _
      | exact inv_retryWalk (inv_retryMem h _)
      | exact inv_retryWalk (inv_retryMem (inv_retryMem h _) _)

/-! ### Flushes -/

/-- Giving up what a client waits for. -/
def drop (w : WalkClient) : WalkClient := { w with pending := false, inflight := false, respValid := false }

theorem rel_flushWalk {k : KState} {b : State} (h : Rel k b) (c : Client) : Rel (k.flushWalk c) (b.flushWalk c) := by
  have h1 : Rel { k with walk := k.walk.set c (drop (k.walk.get c)) } { b with walk := b.walk.set c (drop (b.walk.get c)) } :=
    { h with
      walk := fun c' => by
        show WEq ((k.walk.set c _).get c') ((b.walk.set c _).get c')
        rw [get_set, get_set]
        split
        · exact { h.walk c with pending := rfl, inflight := rfl, respValid := rfl }
        · exact h.walk c' }
  have ho : (k.active && k.owner == c) = (b.active && b.owner == c) := by
    rw [h.active]
    cases ha : b.active
    · rfl
    · rw [h.owner ha]
  unfold KState.flushWalk State.flushWalk
  dsimp only
  rw [ho]
  split
  · exact { h1 with
      phase := rfl, active := rfl, pte1 := rfl
      owner := fun hc => Bool.noConfusion (show false = true from hc) }
  · exact h1

theorem inv_flushWalk {b : State} (h : Inv b) (c : Client) : Inv (b.flushWalk c) := by
  have hv : ∀ c', ((b.walk.set c (drop (b.walk.get c))).get c').respValid = true →
      ((b.walk.set c (drop (b.walk.get c))).get c').resp.vaddr = ((b.walk.set c (drop (b.walk.get c))).get c').req.vaddr := by
    intro c'
    rw [get_set]
    split
    · exact fun hc => Bool.noConfusion (show false = true from hc)
    · exact h.vad c'
  have hl : ∀ c', ((b.walk.set c (drop (b.walk.get c))).get c').resp.level &&& 1#8 =
      ((b.walk.set c (drop (b.walk.get c))).get c').resp.level := by
    intro c'
    rw [get_set]
    split
    · exact h.level c
    · exact h.level c'
  have hown := h.own
  unfold State.flushWalk
  dsimp only
  split
  · rename_i hc
    refine { act := rfl, wid := fun hc => Bool.noConfusion (show false = true from hc), own := ?_, vad := hv, level := hl }
    show (b.walk.set c _).i.inflight = false
    cases c
    · show b.walk.i.inflight = false
      rw [hown]
      simp only [Bool.and_eq_true, beq_iff_eq] at hc
      rw [hc.2]; cases b.active <;> rfl
    · rfl
  · rename_i hc
    refine { act := h.act, wid := h.wid, own := ?_, vad := hv, level := hl }
    show (b.walk.set c _).i.inflight = (b.active && b.owner == .itlb)
    cases c
    · exact hown
    · exact (Bool.eq_false_iff.mpr hc).symm

theorem rel_seq {k : KState} {b : State} (h : Rel k b) (f : Two Bool) : Rel (k.seq f) (b.seq f) := by
  unfold KState.seq State.seq
  dsimp only
  cases f.d <;> cases f.i <;> simp only [Bool.false_eq_true, if_false, if_true] <;>
    first
      | exact h
      | exact rel_flushWalk h _
      | exact rel_flushWalk (rel_flushWalk h _) _

theorem inv_seq {b : State} (h : Inv b) (f : Two Bool) : Inv (b.seq f) := by
  unfold State.seq
  dsimp only
  cases f.d <;> cases f.i <;> simp only [Bool.false_eq_true, if_false, if_true] <;>
    first
      | exact h
      | exact inv_flushWalk h _
      | exact inv_flushWalk (inv_flushWalk h _) _

/-! ### Packing -/

theorem meq_canon {a b : MemClient} (h : MEq a b) : MEq (canonMem a) b where
  pending := h.pending
  inflight := h.inflight
  addr := (and_self_mask _ _).trans h.addr
  respValid := h.respValid
  respData := (and_self_mask _ _).trans h.respData

theorem weq_canon {a b : WalkClient} (h : WEq a b) : WEq (canonWalk a) b where
  pending := h.pending
  inflight := h.inflight
  vaddr := (and_self_mask _ _).trans h.vaddr
  satp := (and_self_mask _ _).trans h.satp
  respValid := h.respValid
  fault := h.fault
  leaf := (and_self_mask _ _).trans h.leaf
  level := (and_self_mask _ _).trans h.level

theorem code_low (p : Phase) : code p &&& 7#8 = code p := by cases p <;> rfl
theorem code_waitsB (p : Phase) : waits (code p) = waitsP p := by cases p <;> rfl

/-- What is left of the state in the bits is still in step with the walker. -/
theorem rel_canon {k : KState} {b : State} (h : Rel k b) (hi : Inv b) : Rel (canon k) b where
  mem c := by
    cases c
    · exact meq_canon (h.mem .dtlb)
    · exact meq_canon (h.mem .itlb)
  walk c := by
    cases c
    · exact weq_canon (h.walk .dtlb)
    · exact weq_canon (h.walk .itlb)
  phase := by
    show k.phase &&& 7#8 = _
    rw [h.phase, code_low]
  active := by
    show (k.phase &&& 7#8 != 0#8) = _
    rw [h.phase, code_low, hi.act]
    cases b.phase <;> rfl
  owner ha := by
    show (if (k.phase &&& 7#8 != 0#8) && k.walk.i.inflight then Client.itlb else .dtlb) = _
    have h1 : k.walk.i.inflight = b.walk.i.inflight := (h.walk .itlb).inflight
    have h2 : (code b.phase != 0#8) = true := by
      rw [hi.act] at ha
      rw [code_idle]
      cases hp : b.phase <;> simp [hp] at ha ⊢
    rw [h.phase, code_low, h1, hi.own, ha, h2]
    cases b.owner <;> rfl
  rr := h.rr
  pte1 := (and_self_mask _ _).trans h.pte1
/-! ### A cycle -/

theorem event_invalid {b : State} {e : Event} (h : e.valid = false) : b.event e = b := by
  unfold State.event; rw [h]; rfl

theorem events_none {b : State} {es : List Event} (h : es.filter (·.valid) = []) : b.events es = b := by
  induction es generalizing b with
  | nil => rfl
  | cons e es ih =>
    cases hv : e.valid
    · rw [List.filter_cons_of_neg (by simp [hv])] at h
      show (b.event e).events es = b
      rw [event_invalid hv]; exact ih h
    · rw [List.filter_cons_of_pos (by simp [hv])] at h; cases h

theorem events_one {b : State} {es : List Event} (h : (es.filter (·.valid)).length ≤ 1) :
    b.events es = match es.find? (·.valid) with | some e => b.event e | none => b := by
  induction es generalizing b with
  | nil => rfl
  | cons e es ih =>
    cases hv : e.valid
    · rw [List.filter_cons_of_neg (by simp [hv])] at h
      show (b.event e).events es = _
      rw [event_invalid hv, ih h, List.find?_cons_of_neg (by simp [hv])]
    · rw [List.filter_cons_of_pos (by simp [hv])] at h
      rw [List.find?_cons_of_pos (by simp [hv])]
      show (b.event e).events es = b.event e
      refine events_none (List.length_eq_zero_iff.mp ?_)
      simp only [List.length_cons] at h
      omega

theorem begin_id (b : State) (p : PortIn) :
    (b.begin_ p).idValid = b.idValid ∧ (b.begin_ p).id = b.id := by
  unfold State.begin_ State.select
  split
  · exact ⟨rfl, rfl⟩
  · split
    · exact ⟨rfl, rfl⟩
    · split <;> exact ⟨rfl, rfl⟩

/-- The circuit's register and the walker are in step. -/
structure Sim (reg : Bits) (b : State) : Prop where
  rel : Rel (decodeState reg) b
  inv : Inv b
  can : ∃ k, decodeState reg = canon k

theorem kbegin_id (k : KState) (p : PortIn) :
    (k.inputs p).select.idValid = k.idValid ∧ (k.inputs p).select.id = k.id := by
  rw [kselect_eq]
  split
  · exact ⟨rfl, rfl⟩
  · split
    · exact ⟨rfl, rfl⟩
    · split <;> exact ⟨rfl, rfl⟩

theorem grant_active (b : State) (f : Feedback) : (b.grant f).active = b.active := by
  unfold State.grant
  cases f.grantValid
  · rfl
  · cases f.grantOwner <;> rfl

theorem grant_id (b : State) (f : Feedback) : (b.grant f).idValid = (walkGrant f || b.idValid) ∧
    (b.grant f).id = if walkGrant f then f.grantId else b.id := by
  unfold State.grant walkGrant
  cases f.grantValid
  · exact ⟨rfl, rfl⟩
  · cases f.grantOwner <;> exact ⟨rfl, rfl⟩

theorem kgrant_id (k : KState) (f : Feedback) : (k.grant f).idValid = (walkGrant f || k.idValid) ∧
    (k.grant f).id = if walkGrant f then f.grantId else k.id := by
  unfold KState.grant walkGrant
  cases f.grantValid
  · exact ⟨rfl, rfl⟩
  · cases f.grantOwner <;> exact ⟨rfl, rfl⟩

theorem told_of {b : State} {k : KState} (hr : Rel k b) (hi : Inv b) (hcan : ∃ k', k = canon k') {i : In} {m : Bool}
    (hok : Ok b i m) {e : Event} (he : e ∈ i.fb.events)
    (hact : ((k.inputs (pPort i.port)).select.grant (pFeedback i.fb m k.id)).active = ((b.begin_ i.port).grant i.fb).active) :
    Told ((k.inputs (pPort i.port)).select.grant (pFeedback i.fb m k.id)) ((b.begin_ i.port).grant i.fb)
      (if m then k.id else k.id ^^^ 1#64) e := by
  intro hv ho
  have hm := hok.told e he hv ho
  unfold rightMatch at hm
  obtain ⟨hb1, hb2⟩ := begin_id b i.port
  obtain ⟨hk1, hk2⟩ := kbegin_id k (pPort i.port)
  have hwait : waits k.phase = waitsP b.phase := by rw [hr.phase]; cases b.phase <;> rfl
  have hkv : k.idValid = waitsP b.phase := by
    rw [← hwait]
    obtain ⟨k', rfl⟩ := hcan
    rfl
  have hki : k.id = if waitsP b.phase then 1#64 else 0#64 := by
    rw [← hwait]
    obtain ⟨k', rfl⟩ := hcan
    rfl
  unfold KState.isActiveReq State.isActiveReq
  obtain ⟨hg1, hg2⟩ := grant_id (b.begin_ i.port) i.fb
  obtain ⟨hg3, hg4⟩ := kgrant_id (k.inputs (pPort i.port)).select (pFeedback i.fb m k.id)
  have hwg : walkGrant (pFeedback i.fb m k.id) = walkGrant i.fb := rfl
  have hgi : (pFeedback i.fb m k.id).grantId = 1#64 := rfl
  rw [hact, hg1, hg2, hg3, hg4, hwg, hgi, hk1, hk2, hb1, hb2]
  have hsym : ∀ x y : BitVec 64, (x == y) = (y == x) := fun x y => Bool.beq_comm
  cases hg : walkGrant i.fb
  · rw [hg] at hm
    have hm' : m = (b.idValid && e.id == b.id) := hm
    simp only [Bool.false_or, Bool.false_eq_true, if_false]
    rw [hkv, hki, hsym b.id]
    cases hw : waitsP b.phase
    · have : b.idValid = false := by
        cases hb : b.idValid
        · rfl
        · have := hi.wid hb
          rw [hw] at this; cases this
      rw [this]
      simp
    · rw [hm']
      cases b.idValid <;> cases (e.id == b.id) <;> simp
  · rw [hg] at hm
    have hm' : m = (e.id != i.fb.grantId) := hm
    have hread : (b.begin_ i.port).read.isSome = true := hok.due hg
    have hnw : waitsP b.phase = false := by
      have h1 : (b.begin_ i.port).phase = b.phase ∨ b.phase = .idle := by
        unfold State.begin_ State.select
        split
        · exact .inl rfl
        · rename_i hn
          right
          have : (b.inputs i.port).phase = b.phase := rfl
          rw [this] at hn
          cases hp : b.phase <;> simp [hp] at hn ⊢
      cases h1 with
      | inl h1 =>
        rw [← h1]
        unfold State.read at hread
        cases hp : (b.begin_ i.port).phase <;> simp [hp] at hread ⊢ <;> rfl
      | inr h1 => rw [h1]; rfl
    simp only [Bool.true_or, if_true]
    rw [hki, hnw, hm', hsym i.fb.grantId]
    unfold bne
    cases (e.id == i.fb.grantId) <;> simp

theorem grant_owner (b : State) (f : Feedback) : (b.grant f).owner = b.owner := by
  unfold State.grant
  cases f.grantValid
  · rfl
  · cases f.grantOwner <;> rfl

theorem inv_begin {b : State} (h : Inv b) (p : PortIn) : Inv (b.begin_ p) := inv_select (inv_inputs h p)

theorem inv_step {b : State} (h : Inv b) {i : In} {m : Bool} (hok : Ok b i m) : Inv (b.step i) := by
  have h1 := inv_begin h i.port
  have h2 : Inv ((b.begin_ i.port).grant i.fb) := inv_grant h1 fun hv ho => hok.due (by unfold walkGrant; rw [hv, ho]; rfl)
  refine inv_seq (inv_wakeups ?_ _) _
  rw [events_one hok.one]
  cases he : i.fb.events.find? (·.valid) with
  | none => exact h2
  | some e =>
    refine inv_event h2 fun hv ho hr hact => ?_
    rw [grant_owner]
    exact hok.mild e (List.mem_of_find?_eq_some he) hv ho hr hact

theorem rel_run {k : KState} {b : State} (hr : Rel k b) (hi : Inv b) (hcan : ∃ k', k = canon k') {i : In} {m : Bool}
    (hok : Ok b i m) : Rel (k.run (pPort i.port) (pFeedback i.fb m k.id) i.flush) (b.step i) := by
  have h1 : Rel (k.inputs (pPort i.port)).select (b.begin_ i.port) := rel_select (rel_inputs hr _)
  have h2 := rel_grant h1 i.fb m k.id
  refine rel_seq (rel_wakeups ?_ _ _ _) _
  rw [events_one hok.one]
  show Rel (KState.events _ (match i.fb.events.find? (·.valid) with
    | some e => [pEvent e m k.id]
    | none => [])) _
  cases he : i.fb.events.find? (·.valid) with
  | none => exact h2
  | some e => exact rel_event h2 (told_of hr hi hcan hok (List.mem_of_find?_eq_some he) h2.active)

theorem sim_step {n : Nat} {reg ext junk : Bits} {m : Bool} {b : State} (h : Sim reg b) (hok : Ok b (extIn n ext) m) :
    Sim (twinStep n reg ext m junk) (b.step (extIn n ext)) := by
  have hi := inv_step h.inv hok
  refine ⟨?_, hi, ⟨_, twinStep_state n reg ext junk m⟩⟩
  rw [twinStep_state]
  exact rel_canon (rel_run h.rel h.inv h.can hok) hi

/-! ### Outputs -/

theorem va_hi (v : BitVec 32) : (v >>> 22) &&& 0x3FF#32 = ((v &&& 0xFFFFF000#32) >>> 22) &&& 0x3FF#32 := by
  apply BitVec.eq_of_getLsbD_eq
  intro i hi
  rw [m10, m10, BitVec.getLsbD_ushiftRight, BitVec.getLsbD_ushiftRight, BitVec.getLsbD_and]
  by_cases h : i < 10
  · rw [mF000 _ (by omega)]; simp [show 12 ≤ 22 + i by omega]
  · simp [h]

theorem va_lo (v : BitVec 32) : (v >>> 12) &&& 0x3FF#32 = ((v &&& 0xFFFFF000#32) >>> 12) &&& 0x3FF#32 := by
  apply BitVec.eq_of_getLsbD_eq
  intro i hi
  rw [m10, m10, BitVec.getLsbD_ushiftRight, BitVec.getLsbD_ushiftRight, BitVec.getLsbD_and]
  by_cases h : i < 10
  · rw [mF000 _ (by omega)]; simp
  · simp [h]

theorem ppn_of (v : BitVec 32) : (v >>> 10) &&& 0x3FFFFF#32 = ((v &&& 0xFFFFFC00#32) >>> 10) &&& 0x3FFFFF#32 := by
  apply BitVec.eq_of_getLsbD_eq
  intro i hi
  rw [m22, m22, BitVec.getLsbD_ushiftRight, BitVec.getLsbD_ushiftRight, BitVec.getLsbD_and]
  by_cases h : i < 22
  · rw [mFC00 _ (by omega)]; simp
  · simp [h]

theorem read_eq {k : KState} {b : State} (h : Rel k b) : kRead k = b.read := by
  unfold kRead State.read
  dsimp only
  rw [h.active]
  cases ha : b.active
  · rfl
  have hw := h.walk b.owner
  rw [h.owner ha, h.phase, hw.satp, va_hi (k.walk.get b.owner).req.vaddr, va_lo (k.walk.get b.owner).req.vaddr, hw.vaddr,
    ppn_of k.pte1, h.pte1, ← va_hi, ← va_lo, ← ppn_of]
  cases b.phase <;> rfl

theorem memOut_eq {a b : MemClient} (h : MEq (canonMem a) b) : (canonMem a).out = narrowM b.out := by
  unfold MemClient.out narrowM
  dsimp only
  rw [← h.addr, ← h.respData, h.pending, h.inflight, h.respValid]
  unfold canonMem
  dsimp only
  rw [and_self_mask, and_self_mask]

theorem walkOut_eq {a b : WalkClient} (h : WEq (canonWalk a) b) (hv : b.respValid = true → b.resp.vaddr = b.req.vaddr)
    (hl : b.resp.level &&& 1#8 = b.resp.level) : blankW (canonWalk a).out = narrowW (blankW b.out) := by
  unfold WalkClient.out blankW narrowW
  dsimp only
  rw [h.pending, h.inflight, h.respValid]
  cases hr : b.respValid
  · simp
  · have h1 := h.fault
    have h2 := h.leaf
    have h3 := h.level
    have h4 := h.vaddr
    simp only [if_true]
    rw [hv hr, ← h1, ← h2, ← h4]
    have h5 : b.resp.level = (canonWalk a).resp.level := by
      rw [← hl, ← h3]
      exact and_self_mask _ _
    rw [h5]
    unfold canonWalk
    dsimp only
    rw [and_self_mask, and_self_mask]

theorem out_eq {reg : Bits} {b : State} (h : Sim reg b) (n : Nat) (ext junk : Bits) :
    blank (outOf (twinOut n reg ext junk)) = narrow (blank b.out) := by
  rw [outOf_twin]
  have hr := h.rel
  obtain ⟨k, hk⟩ := h.can
  rw [hk] at hr ⊢
  unfold blank narrow kOut State.out
  dsimp only
  rw [read_eq hr]
  have e1 : (canon k).mem.d.out = narrowM b.mem.d.out := memOut_eq (hr.mem .dtlb)
  have e2 : (canon k).mem.i.out = narrowM b.mem.i.out := memOut_eq (hr.mem .itlb)
  have e3 : blankW (canon k).walk.d.out = narrowW (blankW b.walk.d.out) :=
    walkOut_eq (hr.walk .dtlb) (h.inv.vad .dtlb) (h.inv.level .dtlb)
  have e4 : blankW (canon k).walk.i.out = narrowW (blankW b.walk.i.out) :=
    walkOut_eq (hr.walk .itlb) (h.inv.vad .itlb) (h.inv.level .itlb)
  rw [e1, e2, e3, e4]

/-! ### The beginning -/

theorem clear_state : decodeState (fun _ => false) = canon {} :=
  decodeState_of (s := {}) (by decide +kernel)

theorem sim_init : Sim (fun _ => false) {} where
  rel := by
    rw [clear_state]
    exact
      { mem := fun c => by cases c <;> exact ⟨rfl, rfl, rfl, rfl, rfl⟩
        walk := fun c => by cases c <;> exact ⟨rfl, rfl, rfl, rfl, rfl, rfl, rfl, rfl⟩
        phase := rfl, active := rfl, owner := fun _ => rfl, rr := rfl, pte1 := rfl }
  inv :=
    { act := rfl, wid := fun hc => Bool.noConfusion (show false = true from hc), own := rfl
      vad := fun c => by cases c <;> exact fun _ => rfl
      level := fun c => by cases c <;> rfl }
  can := ⟨_, clear_state⟩

theorem sim_all {n : Nat} {ext : Nat → Bits} {m : Nat → Bool} {junk : Nat → Bits} {t : Nat}
    (h : ∀ s, s < t → Ok (blockAt n ext s) (extIn n (ext s)) (m s)) : Sim (regAt n ext m junk t) (blockAt n ext t) := by
  induction t with
  | zero => exact sim_init
  | succ t ih => exact sim_step (ih fun s hs => h s (by omega)) (h t (by omega))

/-! ### Packing what was unpacked -/

theorem memBit_decode (r : Bits) (base j : Nat) (hj : j < 63) : memBit (decodeMem r base) j = r (base + j) := by
  unfold memBit decodeMem readWordAddr
  dsimp only
  split
  · rw [readUint_bit _ _ _ _ (by omega) (by omega), readUint_bit _ _ _ _ (by omega) (by omega)]
    have : j = 0 ∨ j = 1 := by omega
    rcases this with rfl | rfl
    · rw [reqState_0]
    · rw [reqState_1]
  · split
    · rw [BitVec.getLsbD_ushiftRight, BitVec.getLsbD_shiftLeft,
        show 2 + (j - 2) - 2 = j - 2 by omega, readUint_bit _ _ _ _ (by omega) (by omega),
        show base + 2 + (j - 2) = base + j by omega]
      simp [show 2 + (j - 2) < 32 by omega]
    · split
      · rename_i h; rw [h]
      · rw [packPte_getLsbD, unpackPte_getLsbD, unpackPte_getLsbD]
        have h1 : ∀ i, i < 30 → (readUint r (base + 33) 30).getLsbD i = r (base + 33 + i) :=
          fun i hi => readUint_bit _ _ _ _ hi (by omega)
        by_cases h8 : j - 33 < 8
        · rw [show base + j = base + 33 + (j - 33) by omega, ← h1 _ (by omega)]
          simp [h8]
        · rw [show base + j = base + 33 + (j - 33) by omega, ← h1 _ (by omega)]
          simp [h8, show j - 33 < 30 by omega, show ¬ j - 33 + 2 < 8 by omega]
          intro _; omega

theorem leaf_decode (r : Bits) (a b : Nat) (i : Nat) :
    ((readUint r a 22 <<< 10) ||| readUint r b 8).getLsbD i =
      if i < 8 then r (b + i) else decide (10 ≤ i) && decide (i < 32) && r (a + (i - 10)) := by
  rw [BitVec.getLsbD_or, BitVec.getLsbD_shiftLeft, readUint_getLsbD, readUint_getLsbD]
  by_cases h : i < 8
  · simp [h, show i < 10 by omega, show i < 32 by omega]
  · by_cases h2 : i < 10
    · simp [h, h2]; intro h3; omega
    · by_cases h3 : i < 32
      · simp [h, h2, h3, show i - 10 < 22 by omega, show 10 ≤ i by omega, show i - 10 < 32 by omega]
      · simp [h, h3]

theorem walkBit_decode (r : Bits) (base j : Nat) (hj : j < 77) : walkBit (decodeWalk r base) j = r (base + j) := by
  unfold walkBit decodeWalk
  dsimp only
  split
  · rw [readUint_bit _ _ _ _ (by omega) (by omega), readUint_bit _ _ _ _ (by omega) (by omega)]
    have : j = 0 ∨ j = 1 := by omega
    rcases this with rfl | rfl
    · rw [reqState_0]
    · rw [reqState_1]
  · split
    · rw [m20, BitVec.getLsbD_ushiftRight, BitVec.getLsbD_shiftLeft,
        show 12 + (j - 2) - 12 = j - 2 by omega, readUint_bit _ _ _ _ (by omega) (by omega),
        show base + 2 + (j - 2) = base + j by omega]
      simp [show 12 + (j - 2) < 32 by omega, show j - 2 < 20 by omega]
    · split
      · rw [m22, readUint_bit _ _ _ _ (by omega) (by omega), show base + 22 + (j - 22) = base + j by omega]
        simp [show j - 22 < 22 by omega]
      · split
        · rename_i h; rw [h]
        · split
          · rename_i h; rw [h]
          · split
            · rw [m22, BitVec.getLsbD_ushiftRight, leaf_decode, if_neg (by omega),
                show base + 46 + (10 + (j - 46) - 10) = base + j by omega]
              simp [show 10 + (j - 46) < 32 by omega, show j - 46 < 22 by omega]
            · split
              · rw [m8, leaf_decode, if_pos (by omega), show base + 68 + (j - 68) = base + j by omega]
                simp [show j - 68 < 8 by omega]
              · rw [show j = 76 by omega]
                cases r (base + 76) <;> rfl

theorem stateBit_decode (r : Bits) (k : Nat) (hk : k < stateWidth) : stateBit (decodeState r) k = r k := by
  have hw : stateWidth = 308 := rfl
  have e1 : memBase .dtlb = 28 := rfl
  have e2 : memBase .itlb = 91 := rfl
  have e3 : walkBase .dtlb = 154 := rfl
  have e4 : walkBase .itlb = 231 := rfl
  unfold stateBit
  rw [if_neg (by omega)]
  split
  · split
    · show ((BitVec.setWidth 8 (readUint r 0 3)).setWidth 32).getLsbD k = _
      rw [BitVec.getLsbD_setWidth, BitVec.getLsbD_setWidth, readUint_bit _ _ _ _ (by omega) (by omega), Nat.zero_add]
      simp [show k < 32 by omega, show k < 8 by omega]
    · split
      · rename_i h
        rw [h]
        show ((if r 3 then Client.itlb else .dtlb) != .dtlb) = _
        cases r 3 <;> rfl
      · split
        · show (((readUint r 4 22 <<< 10) >>> 10) &&& 0x3FFFFF#32).getLsbD (k - 4) = _
          rw [m22, BitVec.getLsbD_ushiftRight, BitVec.getLsbD_shiftLeft, show 10 + (k - 4) - 10 = k - 4 by omega,
            readUint_bit _ _ _ _ (by omega) (by omega), show 4 + (k - 4) = k by omega]
          simp [show 10 + (k - 4) < 32 by omega, show k - 4 < 22 by omega]
        · show (sat3 (readUint r 26 2)).getLsbD (k - 26) = _
          have hs : sat3 (readUint r 26 2) = readUint r 26 2 := by
            unfold sat3
            rw [if_neg]
            rw [gt_iff_lt, BitVec.lt_def]
            have : (readUint r 26 2).toNat < 2 ^ 2 := Nat.lt_pow_two_of_testBit _ (fun i hi => by
              rw [← BitVec.getLsbD, readUint_getLsbD]; simp [show ¬ i < 2 by omega])
            have h3 : (3#32).toNat = 3 := rfl
            omega
          rw [hs, readUint_bit _ _ _ _ (by omega) (by omega), show 26 + (k - 26) = k by omega]
  · split
    · show memBit (decodeMem r (memBase .dtlb)) _ = _
      rw [memBit_decode _ _ _ (by omega), show memBase .dtlb + (k - memBase .dtlb) = k by omega]
    · split
      · show memBit (decodeMem r (memBase .itlb)) _ = _
        rw [memBit_decode _ _ _ (by omega), show memBase .itlb + (k - memBase .itlb) = k by omega]
      · split
        · show walkBit (decodeWalk r (walkBase .dtlb)) _ = _
          rw [walkBit_decode _ _ _ (by omega), show walkBase .dtlb + (k - walkBase .dtlb) = k by omega]
        · split
          · show walkBit (decodeWalk r (walkBase .itlb)) _ = _
            rw [walkBit_decode _ _ _ (by omega), show walkBase .itlb + (k - walkBase .itlb) = k by omega]
          · omega

end Verif.PtwTwin

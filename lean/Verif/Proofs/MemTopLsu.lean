import Verif.Model.MemTop
import Verif.Proofs.LsuReach
import Verif.Proofs.DcacheFlat

/-
What the events of the composed memory path do to the load/store unit.
-/
namespace Verif.MemTop

open Verif.Ring Verif.Lane Verif.Spec.ByteMem Verif.Spec.MemOrder Verif.Spec.CacheMem
open Verif.Lsu (Inv respLoad respStore mmioAddr)
open Verif.Dcache (Ld St LdResp StResp after)
open Verif.MemRoute (Req Resp)

/-! ## Answers to loads -/

theorem inv_respLoad {n : Nat} {m : Mem} {u : Lsu.Sys} (h : Inv n m u) {i : Nat} (x : Option (BitVec 32)) (b : Bool)
    (hst : (u.lsu.ldq i).st = .waitDcacheResp)
    (hd : ∀ w, x = some w → b = false →
      Returns mmioAddr m u.prog (u.prog.loads i) (u.lsu.ldq i).paddr (extractData w (u.lsu.ldq i).paddr (u.lsu.ldq i).func3)) :
    Inv n m { u with lsu := respLoad u.lsu i x, badFwd := if b then upd u.badFwd i true else u.badFwd } := by
  have hi := h.load i
  have h1 := hi.older (by rw [hst]; decide)
  have h2 := hi.snap (by rw [hst]; decide) (by rw [hst]; decide)
  have h3 := hi.loc (by rw [hst]; rfl)
  have h4 := hi.clear (Or.inr hst)
  have hbb : (if b then upd u.badFwd i true else u.badFwd) = upd u.badFwd i (b || u.badFwd i) := by
    cases b
    · exact (Lsu.upd_self _ _).symm
    · rfl
  rw [hbb]
  unfold respLoad
  dsimp only
  rw [if_neg (by simp [hst])]
  cases x with
  | some d =>
    have := h.ldSet i (e := { u.lsu.ldq i with result := extractData d (u.lsu.ldq i).paddr (u.lsu.ldq i).func3, st := .readyToWb })
      (r := u.prog.loads i) (w := u.samp i) (b := b || u.badFwd i) u.lsu.rsv u.lsu.unc
      ⟨fun _ => h1, fun _ _ => h2, fun _ => h3.1, fun _ => h3, (fun h => by rcases h with h | h <;> cases h),
        (fun h => by cases h), (fun _ _ hf => hd d rfl (by simp at hf; exact hf.1)), (fun h => by cases h)⟩
    unfold Lsu.ldSet at this
    rw [Lsu.upd_self, Lsu.upd_self] at this
    exact this
  | none =>
    have := h.ldSet i (e := { u.lsu.ldq i with st := .readyToIssue })
      (r := u.prog.loads i) (w := u.samp i) (b := b || u.badFwd i) u.lsu.rsv u.lsu.unc
      ⟨fun _ => h1, fun _ _ => h2, fun _ => h3.1, fun _ => h3, fun _ => h4, (fun h => by cases h), (fun h => by cases h), (fun h => by cases h)⟩
    unfold Lsu.ldSet at this
    rw [Lsu.upd_self, Lsu.upd_self] at this
    exact this

/-- The part of the unit an answer to a load leaves alone. -/
structure LdKeeps (u u' : Lsu.Sys) : Prop where
  stq : u'.lsu.stq = u.lsu.stq
  prog : u'.prog = u.prog
  mem : u'.mem = u.mem
  pend : u'.pend = u.pend

theorem respLoad_stq (l : Lsu.State) (i : Nat) (x : Option (BitVec 32)) : (respLoad l i x).stq = l.stq := by
  unfold respLoad; dsimp only; split
  · rfl
  · cases x <;> rfl

theorem respLoad_other (l : Lsu.State) {i j : Nat} (x : Option (BitVec 32)) (h : j ≠ i) : (respLoad l i x).ldq j = l.ldq j := by
  unfold respLoad; dsimp only; split
  · rfl
  · cases x <;> exact upd_ne _ _ h

theorem respLoad_same (l : Lsu.State) (i : Nat) (x : Option (BitVec 32)) : ((respLoad l i x).ldq i).st ≠ .waitDcacheResp := by
  unfold respLoad; dsimp only; split
  · next h => exact h
  · cases x with
    | some d => rw [show (Lsu.State.ldq _ i) = _ from upd_same _ _ _]; simp
    | none => rw [show (Lsu.State.ldq _ i) = _ from upd_same _ _ _]; simp

/-- Every waiting load has an answer among `rs`, and what the answers say is true. -/
structure Due (m : Mem) (late : BitVec 32 → Bool) (u : Lsu.Sys) (who : BitVec 32 → Option Nat) (rs : List Resp) : Prop where
  wait : ∀ id i, who id = some i → (u.lsu.ldq i).st = .waitDcacheResp
  has : ∀ id i, who id = some i → ∃ r ∈ rs, r.id = id
  inj : ∀ a b i, who a = some i → who b = some i → a = b
  all : ∀ i, (u.lsu.ldq i).st = .waitDcacheResp → ∃ id, who id = some i
  data : ∀ r ∈ rs, ∀ i, who r.id = some i → r.replay = .hit → late r.id = false →
    Returns mmioAddr m u.prog (u.prog.loads i) (u.lsu.ldq i).paddr (extractData r.data (u.lsu.ldq i).paddr (u.lsu.ldq i).func3)

theorem takeLoads {n : Nat} {m : Mem} {late : BitVec 32 → Bool} : ∀ (rs : List Resp) (u : Lsu.Sys) (who : BitVec 32 → Option Nat),
    Inv n m u → Due m late u who rs →
    Inv n m (rs.foldl (takeLoad late) (u, who)).1 ∧ LdKeeps u (rs.foldl (takeLoad late) (u, who)).1 ∧
    Due m late (rs.foldl (takeLoad late) (u, who)).1 (rs.foldl (takeLoad late) (u, who)).2 []
  | [], u, who, h, d => ⟨h, ⟨rfl, rfl, rfl, rfl⟩, d⟩
  | r :: rs, u, who, h, d => by
    rw [List.foldl_cons]
    unfold takeLoad
    dsimp only
    cases hw : who r.id with
    | none =>
      dsimp only
      refine takeLoads rs u who h ⟨d.wait, ?_, d.inj, d.all, fun r' hr' => d.data r' (List.mem_cons_of_mem _ hr')⟩
      intro id i hid
      obtain ⟨r', hr', he⟩ := d.has id i hid
      rcases List.mem_cons.mp hr' with rfl | hr'
      · rw [he, hid] at hw; cases hw
      · exact ⟨r', hr', he⟩
    | some i =>
      dsimp only
      have hst := d.wait _ _ hw
      have h1 := inv_respLoad h (i := i) (if r.replay = .hit then some r.data else none) (late r.id) hst (by
        intro w hx hl
        split at hx
        · next hh => injection hx with hx; subst hx; exact d.data r (List.mem_cons_self ..) i hw hh hl
        · cases hx)
      have ne : ∀ id j, id ≠ r.id → who id = some j → j ≠ i := by
        intro id j hne hid e
        subst e
        exact hne (d.inj _ _ _ hid hw)
      obtain ⟨g1, g2, g3⟩ := takeLoads rs _ (fun id => if id = r.id then none else who id) h1
        { wait := by
            intro id j hid
            dsimp only at hid ⊢
            split at hid
            · cases hid
            · next hne => rw [respLoad_other _ _ (ne id j hne hid)]; exact d.wait _ _ hid
          has := by
            intro id j hid
            split at hid
            · cases hid
            · next hne =>
              obtain ⟨r', hr', he⟩ := d.has id j hid
              rcases List.mem_cons.mp hr' with rfl | hr'
              · exact absurd he.symm hne
              · exact ⟨r', hr', he⟩
          inj := by
            intro a b j ha hb
            split at ha
            · cases ha
            · split at hb
              · cases hb
              · exact d.inj a b j ha hb
          all := by
            intro j hj
            dsimp only at hj ⊢
            by_cases e : j = i
            · subst e; exact absurd hj (respLoad_same _ _ _)
            · rw [respLoad_other _ _ e] at hj
              obtain ⟨id, hid⟩ := d.all j hj
              refine ⟨id, ?_⟩
              rw [if_neg]
              · exact hid
              · intro e2; rw [e2, hw] at hid; injection hid with hid; exact e hid.symm
          data := by
            intro r' hr' j hj hh hl
            dsimp only at hj ⊢
            split at hj
            · cases hj
            · next hne =>
              rw [respLoad_other _ _ (ne _ j hne hj)]
              exact d.data r' (List.mem_cons_of_mem _ hr') j hj hh hl }
      exact ⟨g1, ⟨g2.stq.trans (respLoad_stq _ _ _), g2.prog, g2.mem, g2.pend⟩, g3⟩

/-! ## Answers to stores -/

/-- The outstanding store requests. -/
structure Out (u : Lsu.Sys) (qs : List Lsu.StoreReq) : Prop where
  nodup : (qs.map (·.idx)).Nodup
  pend : ∀ q ∈ qs, u.pend q.idx = some (q, false)
  all : ∀ i q b, u.pend i = some (q, b) → q ∈ qs
  wait : ∀ i, (u.lsu.stq i).st = .waitDcacheResp → u.pend i ≠ none

theorem upd_upd {α : Type} (f : Nat → α) (i : Nat) (a b : α) : upd (upd f i a) i b = upd f i b := by
  funext j; unfold upd; split <;> rfl

theorem pend_idx {n : Nat} {m : Mem} {u : Lsu.Sys} (h : Inv n m u) {i : Nat} {q : Lsu.StoreReq} {b : Bool} (hp : u.pend i = some (q, b)) :
    q.idx = i ∧ i < n := by
  obtain ⟨k, _, _, h3, _, h5⟩ := h.pending hp
  refine ⟨by rw [h5]; rfl, ?_⟩
  apply Classical.byContradiction
  intro hc
  rw [h.out i (by omega)] at hp; cases hp

theorem inv_takeStore {n : Nat} {m : Mem} {u : Lsu.Sys} (hn : 0 < n) (hn2 : n ≤ 2 ^ 32) (h : Inv n m u) {q : Lsu.StoreReq} {r : StResp}
    (hp : u.pend q.idx = some (q, false)) (hr : r.req = stOf q) : Inv n m (takeStore u r) ∧ r.req.id.toNat = q.idx := by
  have hlt := (pend_idx h hp).2
  have hid : r.req.id.toNat = q.idx := by
    rw [hr]; show (BitVec.ofNat 32 q.idx).toNat = _
    rw [BitVec.toNat_ofNat, Nat.mod_eq_of_lt (by omega)]
  refine ⟨?_, hid⟩
  unfold takeStore
  rw [hid]
  by_cases hh : r.replay = .hit
  · rw [if_pos hh, hr]
    have h1 := Lsu.inv_step hn h (.stPerform q.idx) ⟨q, hp⟩ (by simp only [Lsu.Sys.step, hp]; rfl)
    have h2 := Lsu.inv_step hn h1 (.stResp q.idx true) ⟨q, by dsimp only; exact upd_same _ _ _⟩ rfl
    dsimp only at h2
    rw [upd_upd] at h2
    rw [decide_eq_true hh]
    exact h2
  · rw [if_neg hh]
    have h2 := Lsu.inv_step hn h (.stResp q.idx false) ⟨q, hp⟩ rfl
    rw [decide_eq_false hh]
    exact h2

theorem respStore_other (l : Lsu.State) {i j : Nat} (x : Bool) (h : j ≠ i) : (respStore l i x).stq j = l.stq j := by
  unfold respStore; dsimp only; split
  · rfl
  · exact upd_ne _ _ h

theorem respStore_same (l : Lsu.State) (i : Nat) (x : Bool) : ((respStore l i x).stq i).st ≠ .waitDcacheResp := by
  unfold respStore; dsimp only; split
  · next h => exact h
  · rw [show (Lsu.State.stq _ i) = _ from upd_same _ _ _]; cases x <;> simp

theorem respStore_ldq (l : Lsu.State) (i : Nat) (x : Bool) : (respStore l i x).ldq = l.ldq := by
  unfold respStore; dsimp only; split <;> rfl

theorem out_takeStore {n : Nat} {m : Mem} {u : Lsu.Sys} (h : Inv n m u) {q : Lsu.StoreReq} {qs : List Lsu.StoreReq} {r : StResp}
    (ho : Out u (q :: qs)) (hid : r.req.id.toNat = q.idx) : Out (takeStore u r) qs := by
  unfold takeStore
  rw [hid]
  have hnd := List.nodup_cons.mp (show (q.idx :: qs.map (·.idx)).Nodup from ho.nodup)
  refine ⟨hnd.2, ?_, ?_, ?_⟩
  · intro q' hq'
    dsimp only
    rw [upd_ne]
    · exact ho.pend q' (List.mem_cons_of_mem _ hq')
    · intro e; exact hnd.1 (List.mem_map.mpr ⟨q', hq', e⟩)
  · intro i q' b hp
    dsimp only at hp
    by_cases e : i = q.idx
    · subst e; rw [upd_same] at hp; cases hp
    · rw [upd_ne _ _ e] at hp
      rcases List.mem_cons.mp (ho.all i q' b hp) with e2 | h2
      · subst e2; exact absurd (pend_idx h hp).1.symm e
      · exact h2
  · intro i hi
    dsimp only at hi ⊢
    by_cases e : i = q.idx
    · subst e; exact absurd hi (respStore_same _ _ _)
    · rw [respStore_other _ _ e] at hi
      rw [upd_ne _ _ e]
      exact ho.wait i hi

theorem takeStore_mem (u : Lsu.Sys) (r : StResp) : (takeStore u r).mem = after u.mem [r] := rfl

theorem after_cons (M : Mem) (r : StResp) (rs : List StResp) : after M (r :: rs) = after (after M [r]) rs := rfl

/-- The part of the unit an answer to a store leaves alone. -/
structure StKeeps (u u' : Lsu.Sys) : Prop where
  ldq : u'.lsu.ldq = u.lsu.ldq
  prog : u'.prog = u.prog
  badFwd : u'.badFwd = u.badFwd
  retired : u'.retired = u.retired

theorem takeStores {n : Nat} {m : Mem} (hn : 0 < n) (hn2 : n ≤ 2 ^ 32) : ∀ (rs : List StResp) (qs : List Lsu.StoreReq) (u : Lsu.Sys),
    Inv n m u → rs.map (·.req) = qs.map stOf → Out u qs →
    Inv n m (rs.foldl takeStore u) ∧ StKeeps u (rs.foldl takeStore u) ∧ (rs.foldl takeStore u).mem = after u.mem rs ∧
    Out (rs.foldl takeStore u) []
  | [], [], u, h, _, ho => ⟨h, ⟨rfl, rfl, rfl, rfl⟩, rfl, ho⟩
  | [], q :: qs, _, _, e, _ => by cases e
  | r :: rs, [], _, _, e, _ => by cases e
  | r :: rs, q :: qs, u, h, e, ho => by
    rw [List.map_cons, List.map_cons] at e
    injection e with e1 e2
    obtain ⟨g1, hid⟩ := inv_takeStore hn hn2 h (ho.pend q (List.mem_cons_self ..)) e1
    obtain ⟨a, b, c, d⟩ := takeStores hn hn2 rs qs _ g1 e2 (out_takeStore h ho hid)
    rw [List.foldl_cons]
    refine ⟨a, ⟨b.ldq.trans ?_, b.prog, b.badFwd, b.retired⟩, ?_, d⟩
    · unfold takeStore; exact respStore_ldq _ _ _
    · rw [c, takeStore_mem, ← after_cons]

/-- Part of the answers. -/
theorem takeStores_pre {n : Nat} {m : Mem} (hn : 0 < n) (hn2 : n ≤ 2 ^ 32) : ∀ (k : Nat) (rs : List StResp) (qs : List Lsu.StoreReq) (u : Lsu.Sys),
    Inv n m u → rs.map (·.req) = qs.map stOf → Out u qs →
    ∃ u', Inv n m u' ∧ StKeeps u u' ∧ u'.mem = after u.mem (rs.take k)
  | 0, _, _, u, h, _, _ => ⟨u, h, ⟨rfl, rfl, rfl, rfl⟩, rfl⟩
  | k + 1, [], _, u, h, _, _ => ⟨u, h, ⟨rfl, rfl, rfl, rfl⟩, rfl⟩
  | k + 1, r :: rs, [], _, _, e, _ => by cases e
  | k + 1, r :: rs, q :: qs, u, h, e, ho => by
    rw [List.map_cons, List.map_cons] at e
    injection e with e1 e2
    obtain ⟨g1, hid⟩ := inv_takeStore hn hn2 h (ho.pend q (List.mem_cons_self ..)) e1
    obtain ⟨u', a, b, c⟩ := takeStores_pre hn hn2 k rs qs _ g1 e2 (out_takeStore h ho hid)
    refine ⟨u', a, ⟨b.ldq.trans ?_, b.prog, b.badFwd, b.retired⟩, ?_⟩
    · unfold takeStore; exact respStore_ldq _ _ _
    · rw [c, takeStore_mem, List.take_succ_cons, ← after_cons]

/-- What a waiting load gets from the memory described by some of the answers of the cycle. -/
theorem returns_pre {n : Nat} {m : Mem} (hn : 0 < n) (hn2 : n ≤ 2 ^ 32) {rs : List StResp} {qs : List Lsu.StoreReq} {u : Lsu.Sys}
    (h : Inv n m u) (e : rs.map (·.req) = qs.map stOf) (ho : Out u qs) {i : Nat} (hst : (u.lsu.ldq i).st = .waitDcacheResp) (k : Nat) :
    Returns mmioAddr m u.prog (u.prog.loads i) (u.lsu.ldq i).paddr
      (extractData (word (after u.mem (rs.take k)) (u.lsu.ldq i).paddr) (u.lsu.ldq i).paddr (u.lsu.ldq i).func3) := by
  obtain ⟨u', a, b, c⟩ := takeStores_pre hn hn2 k rs qs u h e ho
  have := Lsu.returns_sample a (i := i) (by rw [b.ldq]; exact hst)
  rw [b.ldq, b.prog, c] at this
  exact this

end Verif.MemTop

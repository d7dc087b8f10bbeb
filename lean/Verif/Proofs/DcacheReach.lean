import Verif.Proofs.DcacheAxi

/-
Runs of the data cache: what the answers handed out say about memory.
-/
namespace Verif.Dcache

/-! ## Order of the stores of one batch -/

/-- No hit after a waiting store of the same line. -/
def Ord (a b : StResp) : Prop := a.replay.waits = true → lineOf a.req.addr = lineOf b.req.addr → b.replay ≠ .hit

theorem storeStep_zero (s : State) (fo : Option FillOut) (x : St × Bool) (mg : Merge) : (storeStep s fo 0 x mg).2.2 = 0 := by
  unfold storeStep
  repeat' split
  all_goals first | rfl | skip

theorem storeStep_waits {s : State} {fo : Option FillOut} {free : Nat} {x : St × Bool} (hw : (storeStep s fo free x (mgOf s.wb x)).1.replay.waits = true) :
    s.fillHits x.1.addr = false ∧ hitWay s.arr (setOf x.1.addr) (tagOf x.1.addr) = none ∧ (s.wb.merge x.1).2 = .no ∧
      s.m.find (lineOf x.1.addr) = none ∧ (storeStep s fo free x (mgOf s.wb x)).2.2 = 0 := by
  obtain ⟨r, rp⟩ := x
  cases rp with
  | true => cases hw
  | false =>
    have hmg : mgOf s.wb (r, false) = (s.wb.merge r).2 := rfl
    rw [hmg] at hw ⊢
    unfold storeStep at hw ⊢
    dsimp only at hw ⊢
    rw [if_neg (by simp)] at hw ⊢
    cases hf : s.fillHits r.addr with
    | true => rw [hf, if_pos rfl] at hw; split at hw <;> cases hw
    | false =>
      rw [hf, if_neg (by simp)] at hw
      rw [if_neg (by simp)]
      cases hk : hitWay s.arr (setOf r.addr) (tagOf r.addr) with
      | some k => rw [hk] at hw; dsimp only at hw; split at hw <;> cases hw
      | none =>
        rw [hk] at hw
        dsimp only at hw ⊢
        cases hm : (s.wb.merge r).2 with
        | done => rw [hm] at hw; cases hw
        | busy => rw [hm] at hw; cases hw
        | no =>
          rw [hm] at hw
          dsimp only at hw ⊢
          cases hfi : s.m.find (lineOf r.addr) with
          | some i => rw [hfi] at hw; simp at hw; cases hw
          | none =>
            rw [hfi] at hw
            simp only [Option.isSome_none, Bool.false_eq_true, if_false] at hw ⊢
            by_cases h0 : free = 0
            · rw [if_pos h0]; exact ⟨trivial, trivial, trivial, trivial, h0⟩
            · rw [if_neg h0] at hw; cases hw

theorem storeStep_full {s : State} {fo : Option FillOut} {x : St × Bool} (h1 : s.fillHits x.1.addr = false)
    (h2 : hitWay s.arr (setOf x.1.addr) (tagOf x.1.addr) = none) (h3 : (s.wb.merge x.1).2 = .no) (h4 : s.m.find (lineOf x.1.addr) = none) :
    (storeStep s fo 0 x (mgOf s.wb x)).1.replay ≠ .hit := by
  obtain ⟨r, rp⟩ := x
  cases rp with
  | true => unfold storeStep; simp
  | false =>
    have hmg : mgOf s.wb (r, false) = .no := h3
    rw [hmg]
    unfold storeStep
    dsimp only at *
    rw [if_neg (by simp), h1, if_neg (by simp), h2]
    dsimp only
    rw [h4]
    simp

theorem merge_no_line {b : Wb} {r r' : St} (h : lineOf r.addr = lineOf r'.addr) (hn : (b.merge r).2 = .no) : (b.merge r').2 = .no := by
  rw [merge_no_iff] at hn ⊢; rw [← h]; exact hn

theorem fillHits_line {s : State} {a a' : BitVec 32} (h : lineOf a = lineOf a') : s.fillHits a = s.fillHits a' := by
  unfold State.fillHits
  cases s.m.fillReq with
  | none => rfl
  | some q =>
    dsimp only
    apply Bool.eq_iff_iff.mpr
    rw [lineMatch_iff, lineMatch_iff, h]

theorem full_rest {s : State} {fo : Option FillOut} {r0 : St} (h1 : s.fillHits r0.addr = false)
    (h2 : hitWay s.arr (setOf r0.addr) (tagOf r0.addr) = none) (h3 : (s.wb.merge r0).2 = .no) (h4 : s.m.find (lineOf r0.addr) = none)
    (xs : List (St × Bool)) : ∀ t, t ∈ triples s fo 0 xs → lineOf r0.addr = lineOf t.2.1.req.addr → t.2.1.replay ≠ .hit := by
  induction xs with
  | nil => intro t ht; cases ht
  | cons x xs ih =>
    intro t ht hl
    rw [triples] at ht
    rcases List.mem_cons.mp ht with e | e
    · subst e
      dsimp only at hl ⊢
      rw [store_req] at hl
      have hst : setOf r0.addr = setOf x.1.addr ∧ tagOf r0.addr = tagOf x.1.addr := line_eq_iff.mp hl
      exact storeStep_full (by rw [← fillHits_line hl]; exact h1) (by rw [← hst.1, ← hst.2]; exact h2) (merge_no_line hl h3) (by rw [← hl]; exact h4)
    · rw [storeStep_zero] at e
      exact ih t e hl

theorem triples_ord (s : State) (fo : Option FillOut) : ∀ (xs : List (St × Bool)) (free : Nat), ((triples s fo free xs).map (·.2.1)).Pairwise Ord
  | [], _ => List.Pairwise.nil
  | x :: xs, free => by
    rw [triples, List.map_cons, List.pairwise_cons]
    refine ⟨?_, triples_ord s fo xs _⟩
    intro b hb hw hl
    obtain ⟨t, ht, rfl⟩ := List.mem_map.mp hb
    dsimp only at hw hl
    obtain ⟨g1, g2, g3, g4, g5⟩ := storeStep_waits hw
    rw [g5] at ht
    rw [store_req] at hl
    exact full_rest g1 g2 g3 g4 xs t ht hl

theorem fwdStore_ord {q : Option FillReq} {a b : StResp} (h : Ord a b) : Ord (fwdStore q a) (fwdStore q b) := by
  intro hw hl
  have ha : fwdStore q a = a := by
    unfold fwdStore at hw ⊢
    split at hw
    · next q' =>
      split at hw
      · cases hw
      · next c => rw [if_neg c]
    · rfl
  have hb : (fwdStore q b).req = b.req := by
    unfold fwdStore
    split
    · split <;> rfl
    · rfl
  rw [ha] at hw
  rw [ha, hb] at hl
  have := h hw hl
  unfold fwdStore
  cases q with
  | none => exact this
  | some q =>
    dsimp only
    split
    · next hc =>
      exfalso
      -- `a` waits for the same line, so it would have been taken as well
      unfold fwdTakes at hc
      rw [Bool.and_eq_true] at hc
      unfold fwdStore fwdTakes at ha
      dsimp only at ha
      have hm : lineMatch a.req.addr q.addr = true := by
        rw [lineMatch_iff] at hc ⊢; rw [hl]; exact hc.2
      rw [hw, hm] at ha
      simp only [Bool.and_self, if_true] at ha
      rw [← ha] at hw
      cases hw
    · exact this

theorem fwdStore_req (q : Option FillReq) (r : StResp) : (fwdStore q r).req = r.req := by
  unfold fwdStore
  split
  · split <;> rfl
  · rfl

theorem fwdLoad_req (q : Option FillReq) (t : Bool) (r : LdResp) : (fwdLoad q t r).req = r.req := by
  unfold fwdLoad
  split
  · split <;> rfl
  · rfl

theorem hitsOf_cons (X : BitVec 32) (r : StResp) (l : List StResp) :
    hitsOf X (r :: l) = (if r.replay = .hit ∧ lineOf r.req.addr = X then [r.req] else []) ++ hitsOf X l := by
  unfold hitsOf
  rw [List.filterMap_cons]
  split <;> split at * <;> simp_all

theorem hitsOf_append (X : BitVec 32) (l l' : List StResp) : hitsOf X (l ++ l') = hitsOf X l ++ hitsOf X l' := by
  unfold hitsOf; rw [List.filterMap_append]

/-- The stores forwarded from a batch come after its earlier hits. -/
theorem hits_map (q : Option FillReq) (X : BitVec 32) : ∀ l : List StResp, l.Pairwise Ord →
    hitsOf X (l.map (fwdStore q)) = hitsOf X l ++ (l.filterMap (fwdOf q)).filter (fun r => lineOf r.addr = X)
  | [], _ => rfl
  | r :: l, hp => by
    rw [List.pairwise_cons] at hp
    have ih := hits_map q X l hp.2
    rw [List.map_cons, hitsOf_cons, hitsOf_cons, ih, List.filterMap_cons, fwdStore_req]
    cases q with
    | none => by_cases c : r.replay = .hit ∧ lineOf r.req.addr = X <;> simp [fwdStore, fwdOf, c]
    | some q =>
      by_cases ht : fwdTakes q r = true
      · have e1 : fwdStore (some q) r = { r with replay := .hit } := by unfold fwdStore; dsimp only; rw [if_pos ht]
        have e2 : fwdOf (some q) r = some r.req := by unfold fwdOf; dsimp only; rw [if_pos ht]
        have hw : r.replay.waits = true := by
          unfold fwdTakes at ht; rw [Bool.and_eq_true] at ht; exact ht.1
        have hnh : ¬ r.replay = .hit := by intro hc; rw [hc] at hw; cases hw
        rw [e1, e2]
        dsimp only
        rw [List.filter_cons]
        by_cases hX : lineOf r.req.addr = X
        · have hl0 : hitsOf X l = [] := by
            unfold hitsOf
            rw [List.filterMap_eq_nil_iff]
            intro b hb
            rw [if_neg]
            rintro ⟨c1, c2⟩
            exact hp.1 b hb hw (by rw [hX, c2]) c1
          rw [hl0]
          simp [hX, hnh]
        · simp [hX]
      · have e1 : fwdStore (some q) r = r := by unfold fwdStore; dsimp only; rw [if_neg ht]
        have e2 : fwdOf (some q) r = none := by unfold fwdOf; dsimp only; rw [if_neg ht]
        rw [e1, e2]
        simp

/-- The hits of the batch so far. -/
theorem hits_ss' {s : Sys} (h : Inv s) (ho : s.d.pendSt.Pairwise Ord) (X : BitVec 32) :
    hitsOf X s.d.ss' = hitsOf X s.d.pendSt ++ s.d.hits X := by
  have hfw := fwds_eq h.ex
  unfold State.hits
  by_cases hs : s.d.stores = []
  · have e : s.d.ss2 = [] := ss2_nil hs
    unfold State.ss' State.ps
    rw [e, List.append_nil, hits_map _ _ _ ho, ← hfw]
    have : hitsOf X [] = [] := rfl
    rw [this, List.append_nil]
  · have hp := (h.pend (Or.inr hs)).2
    have e : s.d.ss' = s.d.ss2 := by
      unfold State.ss' State.ps
      rw [hp, List.nil_append]
      conv => rhs; rw [← List.map_id s.d.ss2]
      apply List.map_congr_left
      intro r hr
      have h0 := (List.filterMap_eq_nil_iff.mp (ss2_fwd h.ex)) r hr
      unfold fwdStore
      unfold fwdOf at h0
      split
      · next q hq =>
        rw [hq] at h0
        dsimp only at h0
        split at h0
        · cases h0
        · next hc => rw [if_neg hc]; rfl
      · rfl
    rw [e, hfw, hp]
    rfl

theorem ss'_ord {s : Sys} (h : Inv s) (ho : s.d.pendSt.Pairwise Ord) : s.d.ss'.Pairwise Ord := by
  have hps : s.d.ps.Pairwise Ord := by
    unfold State.ps
    by_cases hs : s.d.stores = []
    · rw [ss2_nil hs, List.append_nil]; exact ho
    · rw [(h.pend (Or.inr hs)).2, List.nil_append]
      exact triples_ord _ _ _ _
  unfold State.ss'
  exact List.Pairwise.map _ (fun _ _ hab => fwdStore_ord hab) hps

/-! ## What the answers handed out say -/

/-- A load is right: it returns the contents `B` with some of the earlier stores of its batch `ss` to the line. -/
def LdOk (B : BitVec 32 → Line) (ss : List StResp) (r : LdResp) : Prop :=
  r.replay = .hit → r.late = false →
    ∃ T, T <+: hitsOf (lineOf r.req.addr) ss ∧ r.data = T.foldl Line.put (B (lineOf r.req.addr)) (wordOf r.req.addr)

/-- `B`: memory according to the answers handed out; `ld`, `st`: requests not yet answered. -/
structure J (s : Sys) (B : BitVec 32 → Line) (ld : List Ld) (st : List St) : Prop where
  inv : Inv s
  view : ∀ X, lineOf X = X → s.d.view s.mem X = (hitsOf X s.d.pendSt).foldl Line.put (B X)
  ord : s.d.pendSt.Pairwise Ord
  loads : ∀ r ∈ s.d.pendLd, LdOk B s.d.pendSt r
  ld : s.d.pendLd.map (·.req) ++ s.d.loads.map (·.1) = ld
  st : s.d.pendSt.map (·.req) ++ s.d.stores.map (·.1) = st

theorem Keeps.j {s s' : Sys} (k : Keeps s s') {B : BitVec 32 → Line} {ld : List Ld} {st : List St} (h : J s B ld st) : J s' B ld st :=
  ⟨k.inv, fun X hX => by rw [k.view X hX, h.view X hX, k.ps], by rw [k.ps]; exact h.ord, by rw [k.pl, k.ps]; exact h.loads,
    by rw [k.pl, k.ld]; exact h.ld, by rw [k.ps, k.st]; exact h.st⟩

/-- Memory after a batch. -/
def applyHits (B : BitVec 32 → Line) (ss : List StResp) : BitVec 32 → Line := fun X => (hitsOf X ss).foldl Line.put (B X)

theorem grantAll_length : ∀ (as : List (BitVec 32)) (g), (grantAll g as).2.length = as.length
  | [], _ => rfl
  | a :: as, g => by unfold grantAll; dsimp only; rw [List.length_cons, List.length_cons, grantAll_length as]

/-- The second half of a cycle. -/
theorem core_j {s : Sys} {B : BitVec 32 → Line} {ld : List Ld} {st : List St} (h : J s B ld st) (hack : ∀ w, s.wr = some w → w.acked = true)
    (slow : Bool) (ld' : List Ld) (st' : List St) :
    ∃ d o, coreStep s.d slow ld' st' = some (d, o) ∧
      (slow = false → o.loads = [] ∧ o.stores = [] ∧ J { s with d := d } B ld st) ∧
      (slow = true → o.loads.map (·.req) = ld ∧ o.stores.map (·.req) = st ∧ (∀ r ∈ o.loads, LdOk B o.stores r) ∧
        J { s with d := d } (applyHits B o.stores) ld' st') := by
  obtain ⟨⟨d, o⟩, hr⟩ := coreStep_some s.d h.inv.pend h.inv.ex.wbc slow ld' st'
  obtain ⟨b, hb, he⟩ := coreStep_eq s.d h.inv.pend hr
  injection he with he1 he2
  have hI := inv_next h.inv hack slow ld' st' hb
  have hV := fun X hX => view_next h.inv slow ld' st' hb (X := X) hX
  have hS := hits_ss' h.inv h.ord
  have hlds : ∀ r ∈ s.d.rs', LdOk B s.d.ss' r := by
    intro r hr
    rcases rs'_mem h.inv hr with hp | hok
    · intro h1 h2
      obtain ⟨T, t1, t2⟩ := h.loads r hp h1 h2
      exact ⟨T, t1.trans (by rw [hS]; exact List.prefix_append _ _), t2⟩
    · intro h1 h2
      refine ⟨hitsOf (lineOf r.req.addr) s.d.pendSt, by rw [hS]; exact List.prefix_append _ _, ?_⟩
      rw [hok h1 h2, h.view _ (lineOf_idem _)]
  have hldr : s.d.rs'.map (·.req) = ld := by
    unfold State.rs' State.pl
    rw [List.map_map]
    have : ((fun x => x.req) ∘ fwdLoad s.d.m.fillReq s.d.touched) = fun x : LdResp => x.req := by funext x; exact fwdLoad_req _ _ _
    rw [this, List.map_append, ← h.ld]
    congr 1
    unfold State.ls
    rw [(loadsStep_eq s.d s.d.loads _).1, List.map_map]
    conv => rhs; rw [← ltriples_fst s.d s.d.loads (mshrN - s.d.m.count)]
    rw [List.map_map]
    apply List.map_congr_left
    intro t ht
    exact (loadFacts ht).req
  have hstr : s.d.ss'.map (·.req) = st := by
    unfold State.ss' State.ps
    rw [List.map_map]
    have : ((fun x => x.req) ∘ fwdStore s.d.m.fillReq) = fun x : StResp => x.req := by funext x; exact fwdStore_req _ _
    rw [this, List.map_append, ← h.st]
    congr 1
    unfold State.ss2
    rw [List.map_map]
    conv => rhs; rw [← triples_fst s.d s.d.fs.1 s.d.stores s.d.ls.2.2]
    rw [List.map_map]
    apply List.map_congr_left
    intro t ht
    exact (mem_ts h.inv.ex ht).req
  have hview : ∀ X, lineOf X = X → (s.d.next slow ld' st' b).view s.mem X = (hitsOf X s.d.ss').foldl Line.put (B X) := by
    intro X hX
    rw [hV X hX, h.view X hX, hS, List.foldl_append]
  refine ⟨d, o, hr, ?_, ?_⟩
  · intro hslow
    subst hslow
    subst he1
    subst he2
    exact ⟨rfl, rfl, hI, hview, ss'_ord h.inv h.ord, hlds, by rw [← hldr]; exact List.append_nil _, by rw [← hstr]; exact List.append_nil _⟩
  · intro hslow
    subst hslow
    subst he1
    subst he2
    refine ⟨hldr, hstr, hlds, hI, hview, List.Pairwise.nil, (fun r hr => by cases hr), ?_, ?_⟩
    · show [] ++ (ld'.zip (banks s.d s.d.fo.isSome ld' st').1).map (·.1) = ld'
      rw [List.nil_append]
      apply List.map_fst_zip
      unfold banks
      dsimp only
      rw [grantAll_length, List.length_map]; exact Nat.le_refl _
    · show [] ++ (st'.zip (banks s.d s.d.fo.isSome ld' st').2).map (·.1) = st'
      rw [List.nil_append]
      apply List.map_fst_zip
      unfold banks
      dsimp only
      rw [grantAll_length, List.length_map]; exact Nat.le_refl _

/-- A cycle. -/
theorem tick_j {s : Sys} {B : BitVec 32 → Line} {ld : List Ld} {st : List St} (h : J s B ld st) {slow : Bool} {ld' : List Ld} {st' : List St}
    {resp : Option Nat} {ack : Bool} (hv : s.Valid (.tick slow ld' st' resp ack)) :
    ∃ s' o, s.step (.tick slow ld' st' resp ack) = some (s', o) ∧
      (slow = false → o.loads = [] ∧ o.stores = [] ∧ J s' B ld st) ∧
      (slow = true → o.loads.map (·.req) = ld ∧ o.stores.map (·.req) = st ∧ (∀ r ∈ o.loads, LdOk B o.stores r) ∧
        J s' (applyHits B o.stores) ld' st') := by
  obtain ⟨d1, tk, h1, h2, h3⟩ := axi_step h.inv hv
  obtain ⟨d, o, h4, h5, h6⟩ := core_j (h2.j h) h3 slow ld' st'
  refine ⟨{ s with d := d, rd := s.rdAfter resp tk, wr := s.wrAfter ack }, { o with rdTaken := tk }, ?_, h5, h6⟩
  show (tick s.d (s.input slow ld' st' resp ack)).map _ = _
  unfold tick
  rw [h1]
  dsimp only
  have h4' : coreStep d1 (s.input slow ld' st' resp ack).slow (s.input slow ld' st' resp ack).loads (s.input slow ld' st' resp ack).stores = some (d, o) := h4
  rw [h4']
  rfl

/-! ## The other events -/

theorem keep_rdTake {s : Sys} (h : Inv s) (hv : s.Valid .rdTake) : ∃ s', s.step .rdTake = some (s', {}) ∧ Keeps s s' := by
  obtain ⟨h1, h2⟩ := hv
  cases e : s.d.m.axiReq with
  | none => exact absurd e h1
  | some p =>
    obtain ⟨i, a⟩ := p
    refine ⟨{ s with rd := upd s.rd i (some { addr := a }) }, by unfold Sys.step; rw [e], ?_⟩
    unfold Mshr.axiReq at e
    obtain ⟨j, hj, hje⟩ := Option.map_eq_some_iff.mp e
    injection hje with hje hja
    subst hje
    subst hja
    have hi := List.mem_range.mp (List.mem_of_find?_eq_some hj)
    have hp := List.find?_some hj
    rw [Bool.and_eq_true] at hp
    have hiss : (s.d.m.ent j).issued = false := by simpa using hp.2
    have hacked : ∀ k r, s.rd k = some r → r.acked = true := fun k r hr => h2 k (h.rd k r hr).1 r hr
    have hh : ∀ l, s.d.m.hold ≠ some (j, l) := by
      intro l hl
      have := (h.ex.hold j l hl).2.2
      rw [hiss] at this; cases this
    refine ⟨?_, fun _ _ => rfl, rfl, rfl, rfl, rfl⟩
    refine { h with rd := ?_, rd1 := ?_ }
    · intro k r hr
      dsimp only at hr
      unfold upd at hr
      split at hr
      · next ek =>
        subst ek
        injection hr with hr
        subst hr
        exact ⟨hi, hp.1, rfl, hiss.symm, fun l hl => (by cases hl), hh⟩
      · exact h.rd k r hr
    · intro k k' r r' hr hr' ha ha'
      dsimp only at hr hr'
      unfold upd at hr hr'
      split at hr
      · next ek =>
        split at hr'
        · next ek' => rw [ek, ek']
        · rw [hacked k' r' hr'] at ha'; cases ha'
      · rw [hacked k r hr] at ha; cases ha

theorem keep_rdRead {s : Sys} (h : Inv s) {i : Nat} (_hv : s.Valid (.rdRead i)) : ∃ s', s.step (.rdRead i) = some (s', {}) ∧ Keeps s s' := by
  refine ⟨_, rfl, ?_, fun _ _ => rfl, rfl, rfl, rfl, rfl⟩
  have key : ∀ k r, upd s.rd i ((s.rd i).map fun r => ({ r with data := some (s.mem r.addr) } : Rd)) k = some r →
      ∃ r0, s.rd k = some r0 ∧ r.addr = r0.addr ∧ r.acked = r0.acked ∧ (r.data = r0.data ∨ r.data = some (s.mem r0.addr)) := by
    intro k r hr
    unfold upd at hr
    split at hr
    · next ek =>
      obtain ⟨r0, h0, rfl⟩ := Option.map_eq_some_iff.mp hr
      exact ⟨r0, by rw [ek]; exact h0, rfl, rfl, Or.inr rfl⟩
    · exact ⟨r, hr, rfl, rfl, Or.inl rfl⟩
  refine { h with rd := ?_, rd1 := ?_ }
  · intro k r hr
    obtain ⟨r0, h0, a1, a2, a3⟩ := key k r hr
    obtain ⟨g1, g2, g3, g4, g5, g6⟩ := h.rd k r0 h0
    refine ⟨g1, g2, by rw [a1]; exact g3, by rw [a2]; exact g4, ?_, g6⟩
    intro l hl
    rcases a3 with a3 | a3
    · rw [a3] at hl; rw [a1]; exact g5 l hl
    · rw [a3] at hl; injection hl with hl; rw [a1]; exact hl.symm
  · intro k k' r r' hr hr' ha ha'
    obtain ⟨r0, h0, _, a2, _⟩ := key k r hr
    obtain ⟨r1, h1, _, b2, _⟩ := key k' r' hr'
    exact h.rd1 k k' r0 r1 h0 h1 (by rw [← a2]; exact ha) (by rw [← b2]; exact ha')

theorem keep_wrTake {s : Sys} (h : Inv s) (hv : s.Valid .wrTake) : ∃ s', s.step .wrTake = some (s', {}) ∧ Keeps s s' := by
  obtain ⟨h1, h2⟩ := hv
  cases e : s.d.wb.axiReq with
  | none => exact absurd e h1
  | some p =>
    obtain ⟨a, l⟩ := p
    refine ⟨{ s with wr := some { addr := a, data := l } }, by unfold Sys.step; rw [e], ?_⟩
    unfold Wb.axiReq at e
    split at e
    · cases e
    · next hc =>
      injection e with e
      injection e with e1 e2
      subst e1
      subst e2
      have hat : s.d.wb.at 0 = s.d.wb.ent s.d.wb.head := by
        unfold Wb.at; rw [Nat.add_zero, Nat.mod_eq_of_lt h.head]
      refine ⟨?_, fun _ _ => rfl, rfl, rfl, rfl, rfl⟩
      refine { h with wr := ?_, idle := ?_ }
      · intro w hw
        injection hw with hw
        subst hw
        refine ⟨Nat.pos_of_ne_zero (fun h0 => hc (Or.inr h0)), by rw [hat], by rw [hat], ?_, fun hd => by cases hd⟩
        dsimp only
        exact (h.idle h2).symm
      · intro hw; cases hw

theorem keep_wrWrite {s : Sys} (h : Inv s) (hv : s.Valid .wrWrite) : ∃ s', s.step .wrWrite = some (s', {}) ∧ Keeps s s' := by
  obtain ⟨w, hw, hd⟩ := hv
  refine ⟨{ s with mem := fun a => if a = w.addr then w.data else s.mem a, wr := some { w with done := true } }, by unfold Sys.step; rw [hw], ?_⟩
  obtain ⟨g1, g2, g3, g4, g5⟩ := h.wr w hw
  -- the line is in the write buffer, hence nowhere else
  have hsome : (s.d.wb.line w.addr).isSome = true := findIn_head g1 g2.symm
  obtain ⟨l0, hl0⟩ := Option.isSome_iff_exists.mp hsome
  have hal : lineOf w.addr = w.addr := by rw [g2]; exact h.al 0 g1
  have hmiss := wb_not_miss h hl0
  have hent : ∀ i, i < mshrN → (s.d.m.ent i).valid = true → (s.d.m.ent i).addr ≠ w.addr := mfind_none.mp hmiss
  refine ⟨?_, ?_, rfl, rfl, rfl, rfl⟩
  · refine { h with wr := ?_, idle := ?_, rd := ?_, hold := ?_, clean := ?_ }
    · intro w' hw'
      injection hw' with hw'
      subst hw'
      exact ⟨g1, g2, g3, g4, fun _ => by dsimp only; rw [if_pos rfl]⟩
    · intro hw'; cases hw'
    · intro i r hr
      obtain ⟨r1, r2, r3, r4, r5, r6⟩ := h.rd i r hr
      refine ⟨r1, r2, r3, r4, ?_, r6⟩
      intro l hl
      dsimp only
      rw [if_neg (by rw [r3]; exact hent i r1 r2)]
      exact r5 l hl
    · intro i l hi
      obtain ⟨q1, q2, _⟩ := h.ex.hold i l hi
      dsimp only
      rw [if_neg (hent i q1 q2)]
      exact h.hold i l hi
    · intro S k hk hv' hd'
      dsimp only
      rw [if_neg]
      · exact h.clean S k hk hv' hd'
      · intro hc
        have hway := hitWay_eq h.ex.arr hk hv' rfl
        have := (h.ex.cw (getAddr S (s.d.arr.tag S k)) k (by rw [set_getAddr, tag_getAddr]; exact hway)).1
        rw [hc, hal, hl0] at this; cases this
  · intro X hX
    by_cases hx : X = w.addr
    · subst hx
      have e1 := view_wb h hX hl0
      rw [e1]
      unfold State.view
      have hk : hitWay s.d.arr (setOf w.addr) (tagOf w.addr) = none := by
        cases e : hitWay s.d.arr (setOf w.addr) (tagOf w.addr) with
        | none => rfl
        | some k => have := (h.ex.cw w.addr k e).1; rw [hX, hl0] at this; cases this
      dsimp only
      rw [hk, hl0]
    · unfold State.view
      dsimp only
      rw [if_neg hx]

theorem init_j (mem : BitVec 32 → Line) : J (Sys.init mem) mem [] [] := by
  have hhit : ∀ S T, hitWay Arr.init S T = none := by
    intro S T; rw [hitWay_none]; intro k _ hv; cases hv
  have hfind : ∀ X, Mshr.find {} X = none := by
    intro X; rw [mfind_none]; intro i _ hv; cases hv
  have hline : ∀ X, Wb.line {} X = none := fun _ => rfl
  constructor
  case inv =>
    constructor
    case ex =>
      constructor
      case arr => intro S k k' _ _ hv; cases hv
      case m =>
        constructor
        · intro i _ hv; cases hv
        · intro i j _ _ hv; cases hv
        · show 0 = (List.range mshrN).countP (fun _ => false)
          decide
        · intro i _ hv; cases hv
      case hold => intro i l hh; cases hh
      case wbc => exact Nat.zero_le _
      case cw => intro X k hX; have := hhit (setOf X) (tagOf X); exact absurd (hX.symm.trans this) (by simp)
      case mw => intro X i hX; rfl
    case head => show 0 < wbN; decide
    case al => intro c hc; exact absurd hc (Nat.not_lt_zero _)
    case wr => intro w hw; cases hw
    case idle => intro _; rfl
    case rd => intro i r hr; cases hr
    case rd1 => intro i j r r' hr; cases hr
    case hold => intro i l hh; cases hh
    case clean => intro S k _ hv; cases hv
    case fill => intro f hf; cases hf
    case pend => intro _; exact ⟨rfl, rfl⟩
    case pst => intro r hr; cases hr
  case view =>
    intro X hX
    show State.view {} mem X = mem X
    unfold State.view
    dsimp only
    rw [hhit, hline]
    dsimp only
    exact mview_none (hfind X) _
  case ord => exact List.Pairwise.nil
  case loads => intro r hr; cases hr
  case ld => rfl
  case st => rfl

end Verif.Dcache

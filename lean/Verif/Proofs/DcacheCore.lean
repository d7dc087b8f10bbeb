import Verif.Proofs.DcacheStage
import Verif.Model.DcacheSys

/-
One cycle of the data cache in closed form.
-/
namespace Verif.Dcache

def State.fs (s : State) : Option FillOut × Option (BitVec 32 × Line) := fillStep s.arr (wbN - s.wb.count) s.fill
def State.ls (s : State) : List LdResp × List MReq × Nat := loadsStep s (mshrN - s.m.count) s.loads
def State.ts (s : State) : List ((St × Bool) × StResp × Option StEff) := triples s s.fs.1 s.ls.2.2 s.stores
def State.ss2 (s : State) : List StResp := s.ts.map (·.2.1)
def State.outs (s : State) : List St := s.ts.filterMap fun t => t.2.2.bind StEff.out?
def State.regs (s : State) : List St := s.ts.filterMap fun t => t.2.2.bind StEff.reg?
def State.reqs (s : State) : List MReq := s.ls.2.1 ++ s.ts.filterMap fun t => t.2.2.bind StEff.mshr?
def State.fo (s : State) : Option FillOut := s.fs.1.map fun o => s.outs.foldl (fun o r => { o with data := o.data.put r, dirty := true }) o
def State.arr2 (s : State) : Arr := (s.ts.filterMap (·.2.2)).foldl applyEff ((s.loads.filterMap (loadTouch s)).foldl (fun a t => touch a t.1 t.2) s.arr)
def State.arr3 (s : State) : Arr := match s.fo with | some o => s.arr2.install o | none => s.arr2
def State.touched (s : State) : Bool := match s.fill with | some f => f.touched | none => false
def State.pl (s : State) : List LdResp := s.pendLd ++ s.ls.1
def State.ps (s : State) : List StResp := s.pendSt ++ s.ss2
def State.fwd (s : State) : Bool := s.ps.any fun r => match s.m.fillReq with | some q => fwdTakes q r | none => false
def State.fill' (s : State) : Option FillW := nextFill (s.m.fillReq.map fun q => fwdFill q s.ps) s.fill s.fo.isSome s.regs s.fwd
def State.m1 (s : State) : Mshr := s.m.finish (s.fo.map (·.id))
def State.rs' (s : State) : List LdResp := s.pl.map (fwdLoad s.m.fillReq s.touched)
def State.ss' (s : State) : List StResp := s.ps.map (fwdStore s.m.fillReq)

theorem ls_nil {s : State} (h : s.loads = []) : s.ls.1 = [] := by unfold State.ls; rw [h]; rfl
theorem ss2_nil {s : State} (h : s.stores = []) : s.ss2 = [] := by unfold State.ss2 State.ts; rw [h]; rfl

theorem midStep_eq (s : State) (hp : s.loads ≠ [] ∨ s.stores ≠ [] → s.pendLd = [] ∧ s.pendSt = []) :
    midStep s = some
      { arr := s.arr3
        wb := (mergeAll s.wb s.stores).1
        rs := s.rs'
        ss := s.ss'
        fill := s.fill'
        reqs := s.reqs
        fin := s.fo.map (·.id)
        evict := s.fs.2 } := by
  have hst : storesStep s s.fs.1 s.ls.2.2 (s.stores.zip (mergeAll s.wb s.stores).2) = (s.ss2, s.ts.filterMap (·.2.2)) := by
    rw [zip_answers, storesStep_eq]; rfl
  have h0 : midStep s =
      if (s.pendLd ≠ [] ∧ s.ls.1 ≠ []) ∨ (s.pendSt ≠ [] ∧ (storesStep s s.fs.1 s.ls.2.2 (s.stores.zip (mergeAll s.wb s.stores).2)).1 ≠ []) then none
      else
        let st := storesStep s s.fs.1 s.ls.2.2 (s.stores.zip (mergeAll s.wb s.stores).2)
        let fo : Option FillOut := s.fs.1.map fun o => (st.2.filterMap StEff.out?).foldl (fun o r => { o with data := o.data.put r, dirty := true }) o
        let a2 := st.2.foldl applyEff ((s.loads.filterMap (loadTouch s)).foldl (fun a t => touch a t.1 t.2) s.arr)
        let ps := s.pendSt ++ st.1
        some
          { arr := match fo with | some o => a2.install o | none => a2
            wb := (mergeAll s.wb s.stores).1
            rs := s.rs'
            ss := ps.map (fwdStore s.m.fillReq)
            fill := nextFill (s.m.fillReq.map fun q => fwdFill q ps) s.fill fo.isSome (st.2.filterMap StEff.reg?)
              (ps.any fun r => match s.m.fillReq with | some q => fwdTakes q r | none => false)
            reqs := s.ls.2.1 ++ st.2.filterMap StEff.mshr?
            fin := fo.map (·.id)
            evict := s.fs.2 } := rfl
  rw [h0, hst]
  have hno : ¬ ((s.pendLd ≠ [] ∧ s.ls.1 ≠ []) ∨ (s.pendSt ≠ [] ∧ s.ss2 ≠ [])) := by
    rintro (⟨h1, h2⟩ | ⟨h1, h2⟩)
    · by_cases e : s.loads = []
      · exact h2 (ls_nil e)
      · exact h1 (hp (Or.inl e)).1
    · by_cases e : s.stores = []
      · exact h2 (ss2_nil e)
      · exact h1 (hp (Or.inr e)).2
  rw [if_neg hno]
  dsimp only
  simp only [filterMap_triples]
  rfl

theorem fo_isSome (s : State) : s.fo.isSome = s.fs.1.isSome := by unfold State.fo; cases s.fs.1 <;> rfl

theorem fold_fo (rs : List St) : ∀ o : FillOut,
    (rs.foldl (fun (o : FillOut) r => { o with data := o.data.put r, dirty := true }) o) =
      { o with data := rs.foldl Line.put o.data, dirty := o.dirty || !rs.isEmpty } := by
  induction rs with
  | nil => intro o; simp
  | cons r rs ih => intro o; rw [List.foldl_cons, ih]; simp

/-- The state after the cycle; `b` is the write buffer after it. -/
def State.next (s : State) (slow : Bool) (ld : List Ld) (st : List St) (b : Wb) : State :=
  let ldIn := if slow then ld else []
  let stIn := if slow then st else []
  let bk := banks s s.fo.isSome ldIn stIn
  { arr := s.arr3, m := s.reqs.foldl Mshr.request s.m1, wb := b, loads := ldIn.zip bk.1, stores := stIn.zip bk.2, fill := s.fill',
    pendLd := if slow then [] else s.rs', pendSt := if slow then [] else s.ss' }

/-- The cycle, given that the answers have been handed out. -/
theorem coreStep_eq (s : State) (hp : s.loads ≠ [] ∨ s.stores ≠ [] → s.pendLd = [] ∧ s.pendSt = []) {slow : Bool} {ld : List Ld} {st : List St}
    {r : State × Output} (h : coreStep s slow ld st = some r) : ∃ b, (mergeAll s.wb s.stores).1.push s.fs.2 = some b ∧
      r = (s.next slow ld st b, { loads := if slow then s.rs' else [], stores := if slow then s.ss' else [] }) := by
  unfold coreStep at h
  rw [midStep_eq s hp] at h
  dsimp only at h
  cases e : (mergeAll s.wb s.stores).1.push s.fs.2 with
  | none => rw [e] at h; cases h
  | some b =>
    rw [e] at h
    injection h with h
    refine ⟨b, rfl, ?_⟩
    rw [← h]
    have h2 : (Option.map (fun x => x.id) s.fo).isSome = s.fo.isSome := by cases s.fo <;> rfl
    rw [h2]
    rfl

theorem coreStep_some (s : State) (hp : s.loads ≠ [] ∨ s.stores ≠ [] → s.pendLd = [] ∧ s.pendSt = []) (hc : s.wb.count ≤ wbN) (slow : Bool) (ld : List Ld) (st : List St) :
    ∃ r, coreStep s slow ld st = some r := by
  have hs := mergeAll_same s.stores s.wb
  have : ∃ b, (mergeAll s.wb s.stores).1.push s.fs.2 = some b := by
    cases e : s.fs.2 with
    | none => exact ⟨_, rfl⟩
    | some p =>
      obtain ⟨a, l⟩ := p
      have hfree : wbN - s.wb.count > 0 := by
        unfold State.fs fillStep at e
        split at e
        · cases e
        · dsimp only at e
          split at e
          · split at e
            · next h => exact h
            · cases e
          · cases e
      unfold Wb.push
      dsimp only
      rw [hs.2.1, if_pos (by omega)]
      exact ⟨_, rfl⟩
  obtain ⟨b, hb⟩ := this
  unfold coreStep
  rw [midStep_eq s hp]
  dsimp only
  rw [hb]
  exact ⟨_, rfl⟩

end Verif.Dcache

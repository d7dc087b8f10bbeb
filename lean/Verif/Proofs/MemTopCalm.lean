import Verif.Proofs.MemTopLsu

/-
Events of the load/store unit that do not involve the cache start and end no request.
-/
namespace Verif.MemTop

open Verif.Ring Verif.Lsu

/-- No load or store starts to wait for the cache, and a load that waits goes on waiting for the same word or is squashed. -/
structure Calm (l l' : Lsu.State) : Prop where
  stq : ∀ i, (l'.stq i).st = .waitDcacheResp → (l.stq i).st = .waitDcacheResp
  ldq : ∀ i, (l'.ldq i).st = .waitDcacheResp → (l.ldq i).st = .waitDcacheResp
  keep : ∀ i, (l.ldq i).st = .waitDcacheResp →
    (l'.ldq i).st = .empty ∨ ((l'.ldq i).st = .waitDcacheResp ∧ (l'.ldq i).paddr = (l.ldq i).paddr)

theorem Calm.refl (l : Lsu.State) : Calm l l := ⟨fun _ h => h, fun _ h => h, fun _ h => .inr ⟨h, rfl⟩⟩

theorem Calm.same {l l' : Lsu.State} (hs : l'.stq = l.stq) (hl : l'.ldq = l.ldq) : Calm l l' := by
  refine ⟨fun i => ?_, fun i => ?_, fun i h => .inr ?_⟩
  · rw [hs]; exact id
  · rw [hl]; exact id
  · rw [hl]; exact ⟨h, rfl⟩

theorem Calm.st {l l' : Lsu.State} {k : Nat} {e : StqEntry} (hs : l'.stq = upd l.stq k e) (hl : l'.ldq = l.ldq)
    (he : e.st ≠ .waitDcacheResp ∨ e.st = (l.stq k).st) : Calm l l' := by
  refine ⟨fun i => ?_, fun i => ?_, fun i h => .inr ?_⟩
  · rw [hs]
    intro hi
    by_cases e1 : i = k
    · subst e1
      rw [upd_same] at hi
      rcases he with he | he
      · exact absurd hi he
      · rw [← he]; exact hi
    · rw [upd_ne _ _ e1] at hi; exact hi
  · rw [hl]; exact id
  · rw [hl]; exact ⟨h, rfl⟩

theorem Calm.ld {l l' : Lsu.State} {k : Nat} {e : LdqEntry} (hs : l'.stq = l.stq) (hl : l'.ldq = upd l.ldq k e)
    (h1 : (l.ldq k).st ≠ .waitDcacheResp) (h2 : e.st ≠ .waitDcacheResp) : Calm l l' := by
  refine ⟨fun i => ?_, fun i => ?_, fun i => ?_⟩
  · rw [hs]; exact id
  · rw [hl]
    by_cases e1 : i = k
    · subst e1; rw [upd_same]; exact fun h => absurd h h2
    · rw [upd_ne _ _ e1]; exact id
  · rw [hl]
    by_cases e1 : i = k
    · subst e1; exact fun h => absurd h h1
    · rw [upd_ne _ _ e1]; exact fun h => .inr ⟨h, rfl⟩

theorem calm_flush (n : Nat) (l : Lsu.State) : Calm l (Lsu.flush n l) :=
  ⟨fun _ h => h, (fun _ h => by cases h), fun _ _ => .inl rfl⟩

theorem commitStore_stq {n : Nat} {l l' : Lsu.State} {idx : Nat} {f : Bool} (h : commitStore n l idx f = some l') :
    ∀ i, (l'.stq i).st = .waitDcacheResp → (l.stq i).st = .waitDcacheResp := by
  unfold commitStore at h
  dsimp only at h
  split at h
  · injection h with h
    subst h
    intro i hi
    dsimp only at hi
    by_cases e : i = idx
    · subst e
      rw [upd_same] at hi
      split at hi
      · cases hi
      · split at hi <;> cases hi
    · rw [upd_ne _ _ e] at hi; exact hi
  · cases h

theorem commitStore_ldq {n : Nat} {l l' : Lsu.State} {idx : Nat} {f : Bool} (h : commitStore n l idx f = some l') : l'.ldq = l.ldq := by
  unfold commitStore at h
  dsimp only at h
  split at h
  · injection h with h
    subst h
    rfl
  · cases h

/-- What an event that does not involve the cache leaves alone. -/
structure Plain (u u' : Lsu.Sys) : Prop where
  calm : Calm u.lsu u'.lsu
  mem : u'.mem = u.mem
  pend : u'.pend = u.pend

theorem plain_step {n : Nat} {u u' : Lsu.Sys} {e : Lsu.Ev} (hp : plainEv e = true) (hv : u.Valid n e) (hs : u.step n e = some u') :
    Plain u u' := by
  cases e with
  | ldIssue _ => cases hp
  | ldSample _ => cases hp
  | ldResp _ _ => cases hp
  | stIssue _ => cases hp
  | stPerform _ => cases hp
  | stResp _ _ => cases hp
  | allocSt sz sc mask =>
    obtain ⟨l, hl, hs⟩ := Option.map_eq_some_iff.mp hs
    subst hs
    refine ⟨?_, rfl, rfl⟩
    unfold allocStq at hl
    split at hl
    · cases hl
    · split at hl
      · cases hl
      · injection hl with hl
        subst hl
        exact Calm.st rfl rfl (.inl (by simp))
  | allocLd i sz sg lr mask =>
    obtain ⟨l, hl, hs⟩ := Option.map_eq_some_iff.mp hs
    subst hs
    refine ⟨?_, rfl, rfl⟩
    unfold allocLdq at hl
    split at hl
    · cases hl
    · injection hl with hl
      subst hl
      exact Calm.ld rfl rfl (by rw [hv.1]; simp) (by simp)
  | stData k v =>
    injection hs with hs
    subst hs
    refine ⟨Calm.st (k := tagIdx n k) rfl rfl ?_, rfl, rfl⟩
    dsimp only
    split
    · exact .inl (by simp)
    · exact .inr rfl
  | stAddr k =>
    injection hs with hs
    subst hs
    exact ⟨Calm.st (k := tagIdx n k) rfl rfl (.inl (by simp)), rfl, rfl⟩
  | stTlb k r =>
    injection hs with hs
    subst hs
    refine ⟨?_, rfl, rfl⟩
    unfold tlbStore
    dsimp only
    split
    · exact .refl _
    · cases r with
      | hit pa => exact Calm.st (k := tagIdx n k) rfl rfl (.inl (by dsimp only; split <;> simp))
      | fault => exact Calm.st (k := tagIdx n k) rfl rfl (.inl (by simp))
      | miss => exact Calm.st (k := tagIdx n k) rfl rfl (.inl (by simp))
  | stWin k =>
    injection hs with hs
    subst hs
    refine ⟨?_, rfl, rfl⟩
    unfold windowStore
    dsimp only
    split
    · exact Calm.st (k := tagIdx n k) rfl rfl (.inl (by dsimp only; split <;> simp))
    · exact Calm.st (k := tagIdx n k) rfl rfl (.inl (by simp))
    · exact .refl _
  | stWb k =>
    injection hs with hs
    subst hs
    refine ⟨?_, rfl, rfl⟩
    unfold wbStore
    dsimp only
    split
    · exact .refl _
    · split
      · exact Calm.st (k := tagIdx n k) rfl rfl (.inl (by simp))
      · exact Calm.st (k := tagIdx n k) rfl rfl (.inl (by simp))
  | ldReq i f3 =>
    injection hs with hs
    subst hs
    exact ⟨Calm.ld (k := i) rfl rfl (by rw [hv.1]; simp) (by simp), rfl, rfl⟩
  | ldTlb i r =>
    injection hs with hs
    subst hs
    refine ⟨?_, rfl, rfl⟩
    have h1 : (u.lsu.ldq i).st ≠ .waitDcacheResp := by rw [hv.1]; simp
    unfold tlbLoad
    dsimp only
    split
    · exact .refl _
    · cases r with
      | hit pa => exact Calm.ld (k := i) rfl rfl h1 (by simp)
      | fault => exact Calm.ld (k := i) rfl rfl h1 (by simp)
      | miss => exact Calm.ld (k := i) rfl rfl h1 (by simp)
  | ldWin i =>
    injection hs with hs
    subst hs
    refine ⟨?_, rfl, rfl⟩
    unfold windowLoad
    dsimp only
    split
    · next h => exact Calm.ld (k := i) rfl rfl (by rw [h]; simp) (by simp)
    · next h => exact Calm.ld (k := i) rfl rfl (by rw [h]; simp) (by simp)
    · next h => exact Calm.ld (k := i) rfl rfl (by rw [h]; simp) (by simp)
    · exact .refl _
  | ldStlf i o =>
    obtain ⟨l, hl, hs⟩ := Option.map_eq_some_iff.mp hs
    subst hs
    refine ⟨?_, rfl, rfl⟩
    have h1 : (u.lsu.ldq i).st ≠ .waitDcacheResp := by rw [show (u.lsu.ldq i).st = .checkStlf from hv]; simp
    unfold stlf at hl
    dsimp only at hl
    split at hl
    · cases hl
    · split at hl
      · split at hl
        · injection hl with hl; subst hl
          exact Calm.ld (k := i) rfl rfl h1 (by simp)
        · injection hl with hl; subst hl
          exact .refl _
      · split at hl
        · injection hl with hl; subst hl
          exact Calm.ld (k := i) rfl rfl h1 (by simp)
        · injection hl with hl; subst hl
          exact Calm.ld (k := i) rfl rfl h1 (by simp)
        · injection hl with hl; subst hl
          exact .refl _
  | ldWb i =>
    injection hs with hs
    subst hs
    refine ⟨?_, rfl, rfl⟩
    unfold wbLoad
    dsimp only
    split
    · exact .refl _
    · next h =>
      refine Calm.ld (k := i) rfl rfl (fun hc => h ?_) (by simp)
      rw [hc]; simp
  | commit =>
    obtain ⟨l, hl, hs⟩ := Option.map_eq_some_iff.mp hs
    subst hs
    refine ⟨⟨commitStore_stq hl, fun i => ?_, fun i h => .inr ?_⟩, rfl, rfl⟩
    · dsimp only; rw [commitStore_ldq hl]; exact id
    · dsimp only; rw [commitStore_ldq hl]; exact ⟨h, rfl⟩
  | trapStore =>
    obtain ⟨l, hl, hs⟩ := Option.map_eq_some_iff.mp hs
    subst hs
    exact ⟨⟨fun i h => commitStore_stq hl i h, (fun i h => by cases h), fun i _ => .inl rfl⟩, rfl, rfl⟩
  | flush =>
    injection hs with hs
    subst hs
    exact ⟨calm_flush _ _, rfl, rfl⟩
  | mispred m cut =>
    injection hs with hs
    subst hs
    refine ⟨⟨fun i h => h, fun i h => ?_, fun i h => ?_⟩, rfl, rfl⟩
    · dsimp only [Lsu.mispred] at h
      split at h
      · cases h
      · exact h
    · dsimp only [Lsu.mispred]
      split
      · exact .inl rfl
      · exact .inr ⟨h, rfl⟩
  | clear m =>
    injection hs with hs
    subst hs
    exact ⟨⟨fun i h => h, fun i h => h, fun i h => .inr ⟨h, rfl⟩⟩, rfl, rfl⟩
  | retire =>
    injection hs with hs
    subst hs
    have hc : Calm u.lsu (Lsu.retire n u.lsu) := by
      unfold Lsu.retire
      split
      · exact .refl _
      · exact Calm.same rfl rfl
    split
    · exact ⟨hc, rfl, rfl⟩
    · exact ⟨hc, rfl, rfl⟩
  | mmioResp v =>
    injection hs with hs
    subst hs
    refine ⟨?_, rfl, rfl⟩
    unfold Lsu.mmioResp
    split
    · exact .refl _
    · split
      · dsimp only
        split
        · next h => exact Calm.ld (k := u.lsu.unc.idx) rfl rfl (by rw [h]; simp) (by simp)
        · exact Calm.same rfl rfl
      · dsimp only
        split
        · exact Calm.st (k := u.lsu.unc.idx) rfl rfl (.inl (by simp))
        · exact Calm.same rfl rfl

end Verif.MemTop

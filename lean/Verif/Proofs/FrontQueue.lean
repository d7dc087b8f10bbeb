import Verif.Model.Front

/-! Lemmas about the queues of the front end: a first step that reads, and a possible second one that writes. -/
namespace Verif.Front
variable {α : Type}

theorem qRead_clear (cap : Nat) (rst rf rd : Bool) (l : List α) (h : rst = true ∨ rf = true) :
    qRead cap rst rf rd l = some (⟨0, none⟩, { clear := true }, none) := by
  cases rst <;> cases rf <;> cases rd <;> simp_all [qRead, qCalc, qComb, qNext, qAcc]

theorem qRead_keep (cap : Nat) (rd : Bool) (l : List α) (h : rd = false ∨ l = []) :
    qRead cap false false rd l = some (rdOf l, {}, none) := by
  rcases h with rfl | rfl
  · simp [qRead, qCalc, qComb, qNext, qAcc]
  · cases rd <;> simp [qRead, qCalc, qComb, qNext, qAcc, rdOf]

theorem qRead_pop (cap : Nat) (a : α) (t : List α) :
    qRead cap false false true (a :: t) = some (⟨t.length, none⟩, { pop := true }, some a) := by
  cases t <;> simp [qRead, qCalc, qComb, qNext, qAcc, rdOf]

/-- The state of a queue's bookkeeping within a cycle: the request `q` accumulated so far turns `l` into `l'`, of
which `r` is the view. -/
structure View (l l' : List α) (r : Rd α) (q : Req α) : Prop where
  size : r.size = l'.length
  head : ∀ a, r.head = some a → l'.head? = some a
  clear : q.clear = false
  push : q.push = none
  eq : l' = if q.pop then l.tail else l
  ne : q.pop = true → l ≠ []

theorem qRead_live (cap : Nat) (rd : Bool) (l : List α) :
    ∃ r q, qRead cap false false rd l = some (r, q, if rd then l.head? else none) ∧
      View l (if rd then l.tail else l) r q ∧ (rd = false → r = rdOf l ∧ q = {}) := by
  cases rd with
  | false =>
    refine ⟨_, _, qRead_keep cap false l (.inl rfl), ⟨rfl, fun a h => h, rfl, rfl, rfl, ?_⟩, fun _ => ⟨rfl, rfl⟩⟩
    simp
  | true =>
    cases l with
    | nil => exact ⟨_, _, qRead_keep cap true [] (.inr rfl), ⟨rfl, fun a h => h, rfl, rfl, rfl, by simp⟩, by simp⟩
    | cons a t => exact ⟨_, _, qRead_pop cap a t, ⟨rfl, by simp, rfl, rfl, rfl, by simp⟩, by simp⟩

/-- A write after the read. -/
theorem qPush_live (cap : Nat) {l l' : List α} {r : Rd α} {q : Req α} (v : View l l' r q) (e : α)
    (h : l.length < cap) :
    ∃ r' q', qPush cap false false e r q = some (r', q') ∧ r'.size = (l' ++ [e]).length ∧
      qWrite cap l q' = some (l' ++ [e]) := by
  have hl : l'.length ≤ l.length := by rw [v.eq]; split <;> simp
  have hr : ¬ cap ≤ r.size := by rw [v.size]; omega
  have hc : ¬ cap ≤ l.length := by omega
  obtain ⟨qc, qp, qo⟩ := q
  have h1 : qc = false := v.clear
  have h2 : qp = none := v.push
  subst h1; subst h2
  refine ⟨_, _, by simp [qPush, qCalc, qComb, qNext, qAcc, hr]; exact ⟨rfl, rfl⟩, ?_, ?_⟩
  · simp [v.size]
  · cases qo with
    | false => simp [qWrite, hc, v.eq]
    | true =>
      cases l with
      | nil => exact absurd rfl (v.ne rfl)
      | cons a t =>
        have : ¬ cap ≤ t.length + 1 := by simpa using hc
        simp [qWrite, v.eq, this]

/-- No write after the read. -/
theorem qWrite_live (cap : Nat) {l l' : List α} {r : Rd α} {q : Req α} (v : View l l' r q) :
    qWrite cap l q = some l' := by
  obtain ⟨qc, qp, qo⟩ := q
  have h1 : qc = false := v.clear
  have h2 : qp = none := v.push
  subst h1; subst h2
  cases qo with
  | false => simp [qWrite, v.eq]
  | true =>
    cases l with
    | nil => exact absurd rfl (v.ne rfl)
    | cons a t => simp [qWrite, v.eq]

/-- A read as the second step, when the first one read nothing. -/
theorem qCalc_read (cap : Nat) (a : α) (t : List α) :
    ∃ r q q', qCalc cap ⟨false, false, true, none⟩ (rdOf (a :: t)) = some (r, q, some a) ∧
      qAcc {} q = some q' ∧ View (a :: t) t r q' := by
  cases t with
  | nil =>
    refine ⟨_, _, _, by simp [qCalc, qComb, qNext, rdOf]; exact ⟨rfl, rfl⟩, by simp [qAcc]; rfl, ?_⟩
    exact ⟨rfl, by simp, rfl, rfl, rfl, by simp⟩
  | cons b t =>
    refine ⟨_, _, _, by simp [qCalc, qComb, qNext, rdOf]; exact ⟨rfl, rfl⟩, by simp [qAcc]; rfl, ?_⟩
    exact ⟨rfl, by simp, rfl, rfl, rfl, by simp⟩

theorem qWrite_clear (cap : Nat) (l : List α) : qWrite cap l { clear := true } = some [] := by
  simp [qWrite]

end Verif.Front

import Verif.Proofs.TraceRing
/-
C131: the trace buffers dumped on a deadlock or a difference show the newest events, oldest first, none missing and none twice.
-/
namespace Verif.Props
open Verif.TraceRing Verif.TraceRingProofs

variable {α : Type}

/-- C131: recording never leaves the buffer, and a dump after any number of events shows the last `min dumpCount size` of them in the order recorded
(all if there are fewer), with both numbers of its header right; nothing only if nothing has been recorded. -/
theorem C131_dump (size : Nat) (hs : 0 < size) (d : α) (l : List α) : ∃ r, records (init size d) l = some r ∧
    ∀ c, dump r c = if l = [] then none else
      some ⟨min c (min size l.length), min size l.length, (latest (min c (min size l.length)) l).map some⟩ := by
  obtain ⟨r, e, h⟩ := holds_records hs l [] (holds_init size d hs)
  exact ⟨r, e, fun c => holds_dump hs h c⟩

/-- C131: the newest event is always the last line. -/
theorem C131_newest (size : Nat) (hs : 0 < size) (d : α) (l : List α) (e : α) {c : Nat} (hc : 0 < c) :
    ∃ r b before, records (init size d) (l ++ [e]) = some r ∧ dump r c = some ⟨before.length + 1, b, before ++ [some e]⟩ := by
  obtain ⟨r, e1, h⟩ := C131_dump size hs d (l ++ [e])
  have hlen : (l ++ [e]).length = l.length + 1 := by simp
  have hne : l ++ [e] ≠ [] := by simp
  have hd := h c
  rw [if_neg hne, hlen] at hd
  generalize hm : min c (min size (l.length + 1)) = m at hd
  obtain ⟨m, rfl⟩ : ∃ m', m = m' + 1 := ⟨m - 1, by omega⟩
  refine ⟨r, min size (l.length + 1), (latest m l).map some, e1, hd.trans ?_⟩
  have h1 : latest (m + 1) (l ++ [e]) = latest m l ++ [e] := by
    unfold latest
    rw [hlen, List.drop_append_of_le_length (by omega)]
    congr 2
    omega
  have h2 : (latest m l).length = m := by unfold latest; rw [List.length_drop]; omega
  rw [h1, List.map_append, List.length_map, h2]
  rfl

/-- C131: of a page-table walk the trace keeps the whole cache line as it is in memory, and the word marked in it is the one that was read. -/
theorem C131_walk {k : Nat} (h2 : 2 ≤ k) (hk : k ≤ 10) (f : BitVec 32 → BitVec 32) (req pte : BitVec 32) :
    let w := walk k (some f) req pte
    w.line.toNat = req.toNat - req.toNat % 2 ^ k ∧ w.off < 2 ^ k / 4 ∧
    (∃ ws, w.backing = some ws ∧ ws.length = 2 ^ k / 4 ∧ ws[w.off]? = some (f (req &&& ~~~3#32)) ∧
      ∀ i, i < 2 ^ k / 4 → ws[i]? = some (f (BitVec.ofNat 32 (w.line.toNat + 4 * i)))) ∧
    (walk k none req pte).backing = none := by
  have ho := off_eq hk (some f) req pte
  have hline := line_toNat (by omega : k < 32) req
  have hlt := Nat.mod_lt req.toNat (Nat.two_pow_pos k)
  have hdvd : 4 * (2 ^ k / 4) = 2 ^ k := Nat.mul_div_cancel' ⟨2 ^ (k - 2), by
    show 2 ^ k = 2 ^ 2 * 2 ^ (k - 2)
    rw [← Nat.pow_add]; congr 1; omega⟩
  have hoff : (walk k (some f) req pte).off < 2 ^ k / 4 := by rw [ho]; omega
  refine ⟨by show (req &&& ~~~(BitVec.ofNat 32 (2 ^ k) - 1#32)).toNat = _; omega, hoff, ⟨_, rfl, ?_, ?_, ?_⟩, rfl⟩
  · simp
  · rw [List.getElem?_map, List.getElem?_range hoff, Option.map_some, ho, word_at h2 hk]
  · intro i hi
    rw [List.getElem?_map, List.getElem?_range hi, Option.map_some]
    congr 2
    apply BitVec.eq_of_toNat_eq
    rw [BitVec.toNat_add, BitVec.toNat_ofNat, BitVec.toNat_ofNat, Nat.add_mod_mod, Nat.mul_comm i 4]
    rfl

/-- Three places, five events: the dump of at most two, of all, and before the first event. -/
example : (records (init 3 0) [1, 2, 3, 4, 5]).bind (fun r => (dump r 2).map (fun d => (d.recent, d.buffered, d.lines))) =
    some (2, 3, [some 4, some 5]) := by decide
example : (records (init 3 0) [1, 2, 3, 4, 5]).bind (fun r => (dump r 9).map (fun d => (d.recent, d.buffered, d.lines))) =
    some (3, 3, [some 3, some 4, some 5]) := by decide
example : (records (init 3 0) [1, 2]).bind (fun r => (dump r 9).map (fun d => (d.recent, d.buffered, d.lines))) =
    some (2, 2, [some 1, some 2]) := by decide
example : (dump (init 3 0) 9).isNone = true := by decide

/-- The entry at 0x80001234 in a line of 64 bytes: word 13 of the line at 0x80001200. -/
example : (walk 6 (some fun a => a) 0x80001234#32 7#32).line = 0x80001200#32 ∧ (walk 6 (some fun a => a) 0x80001234#32 7#32).off = 13 ∧
    ((walk 6 (some fun a => a) 0x80001234#32 7#32).backing.bind (·[13]?)) = some 0x80001234#32 := by decide

end Verif.Props

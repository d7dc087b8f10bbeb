import Verif.Spec.Table
/- Storage tables. -/
namespace Verif.TableProofs
open Verif.Table

theorem memcpy_ok {dst src : List Byte} {d s n : Nat} (h1 : d + n ≤ dst.length) (h2 : s + n ≤ src.length) :
    ∃ r, memcpy dst d src s n = some r ∧ r.length = dst.length ∧
      ∀ i, r[i]? = if d ≤ i ∧ i < d + n then src[s + (i - d)]? else dst[i]? := by
  refine ⟨_, if_pos ⟨h1, h2⟩, ?_, fun i => ?_⟩
  · simp only [List.length_append, List.length_take, List.length_drop]; omega
  · have l1 : (dst.take d).length = d := by rw [List.length_take]; omega
    have l2 : ((src.drop s).take n).length = n := by rw [List.length_take, List.length_drop]; omega
    by_cases ha : i < d
    · rw [if_neg (by omega), List.getElem?_append_left (by rw [List.length_append]; omega), List.getElem?_append_left (by omega),
        List.getElem?_take, if_pos ha]
    · by_cases hb : i < d + n
      · rw [if_pos ⟨by omega, hb⟩, List.getElem?_append_left (by rw [List.length_append]; omega), List.getElem?_append_right (by omega), l1,
          List.getElem?_take, if_pos (by omega), List.getElem?_drop]
      · rw [if_neg (by omega), List.getElem?_append_right (by rw [List.length_append]; omega), List.length_append, l1, l2, List.getElem?_drop]
        congr 1; omega

variable {c : Cfg}

theorem row_eq (hf : Fits c) : rowBytes c = c.chunks * chunkBytes c := Nat.mod_eq_of_lt hf.row

/-- Positions of different bytes differ. -/
theorem pos_iff {n cb a a' ch ch' j : Nat} (h1 : ch < n) (h2 : ch' < n) (hj : j < cb) :
    (a' * (n * cb) + ch' * cb ≤ a * (n * cb) + ch * cb + j ∧ a * (n * cb) + ch * cb + j < a' * (n * cb) + ch' * cb + cb) ↔
      a = a' ∧ ch = ch' := by
  constructor
  · rintro ⟨e1, e2⟩
    have q1 : (a * (n * cb) + ch * cb + j) / cb = a * n + ch := by
      rw [show a * (n * cb) + ch * cb + j = j + cb * (a * n + ch) by
        rw [Nat.mul_add, Nat.mul_comm cb ch, ← Nat.mul_assoc a n cb, Nat.mul_comm (a * n) cb]; omega]
      rw [Nat.add_mul_div_left _ _ (by omega), Nat.div_eq_of_lt hj]; omega
    have q2 : (a * (n * cb) + ch * cb + j) / cb = a' * n + ch' := by
      rw [Nat.div_eq_iff (by omega)]
      have : (a' * n + ch') * cb = a' * (n * cb) + ch' * cb := by rw [Nat.add_mul, Nat.mul_assoc]
      omega
    have q : a * n + ch = a' * n + ch' := q1.symm.trans q2
    have d1 : (a * n + ch) / n = a := by
      rw [Nat.add_comm, Nat.mul_comm, Nat.add_mul_div_left _ _ (by omega), Nat.div_eq_of_lt h1]; omega
    have d2 : (a' * n + ch') / n = a' := by
      rw [Nat.add_comm, Nat.mul_comm, Nat.add_mul_div_left _ _ (by omega), Nat.div_eq_of_lt h2]; omega
    have : a = a' := by rw [← d1, ← d2, q]
    subst this
    exact ⟨rfl, by omega⟩
  · rintro ⟨rfl, rfl⟩; omega

theorem pos_lt {n cb a ch j rows : Nat} (ha : a < rows) (h1 : ch < n) (hj : j < cb) :
    a * (n * cb) + ch * cb + j < rows * (n * cb) := by
  have e1 : (a + 1) * (n * cb) ≤ rows * (n * cb) := Nat.mul_le_mul_right _ ha
  have e2 : (ch + 1) * cb ≤ n * cb := Nat.mul_le_mul_right _ h1
  rw [Nat.add_mul, Nat.one_mul] at e1 e2
  omega

theorem loop_ok (hf : Fits c) {w : Write} (ha : w.address < c.rows) (hp : rowBytes c ≤ w.payload.length) :
    ∀ (fuel i : Nat) (st : List Byte), st.length = total c → i + fuel = c.chunks → ∃ st', writeLoop c w fuel i st = some st' ∧
      st'.length = total c ∧ ∀ a ch j, ch < c.chunks → j < chunkBytes c →
        st'[a * rowBytes c + ch * chunkBytes c + j]? =
          if w.address = a ∧ i ≤ ch ∧ w.chunkEnable.getD ch false = true then w.payload[ch * chunkBytes c + j]?
          else st[a * rowBytes c + ch * chunkBytes c + j]?
  | 0, i, st, hl, hi => ⟨st, rfl, hl, fun a ch j h1 h2 => by rw [if_neg (by omega)]⟩
  | fuel + 1, i, st, hl, hi => by
    rw [writeLoop]
    have hic : i < c.chunks := by omega
    by_cases he : w.chunkEnable.getD i false = true
    · rw [if_pos he]
      have hb : w.address * rowBytes c + i * chunkBytes c + chunkBytes c ≤ st.length := by
        rw [hl, total, row_eq hf]
        have e1 : (w.address + 1) * (c.chunks * chunkBytes c) ≤ c.rows * (c.chunks * chunkBytes c) := Nat.mul_le_mul_right _ ha
        have e2 : (i + 1) * chunkBytes c ≤ c.chunks * chunkBytes c := Nat.mul_le_mul_right _ hic
        rw [Nat.add_mul, Nat.one_mul] at e1 e2
        omega
      have hs : i * chunkBytes c + chunkBytes c ≤ w.payload.length := by
        have e2 : (i + 1) * chunkBytes c ≤ c.chunks * chunkBytes c := Nat.mul_le_mul_right _ hic
        rw [Nat.add_mul, Nat.one_mul] at e2
        rw [row_eq hf] at hp
        omega
      obtain ⟨r, h1, h2, h3⟩ := memcpy_ok hb hs
      rw [h1, Option.bind_some]
      obtain ⟨st', g1, g2, g3⟩ := loop_ok hf ha hp fuel (i + 1) r (h2.trans hl) (by omega)
      refine ⟨st', g1, g2, fun a ch j hch hj => ?_⟩
      rw [g3 a ch j hch hj, h3]
      have hiff := pos_iff (a := a) (a' := w.address) (ch := ch) (ch' := i) hch hic hj
      rw [← row_eq hf] at hiff
      by_cases hA : w.address = a ∧ i + 1 ≤ ch ∧ w.chunkEnable.getD ch false = true
      · rw [if_pos hA, if_pos ⟨hA.1, by omega, hA.2.2⟩]
      · rw [if_neg hA]
        by_cases hB : a = w.address ∧ ch = i
        · rw [if_pos (hiff.2 hB)]
          obtain ⟨rfl, rfl⟩ := hB
          rw [if_pos ⟨rfl, Nat.le_refl _, he⟩]
          congr 1; omega
        · rw [if_neg (fun h => hB (hiff.1 h)), if_neg]
          rintro ⟨rfl, k2, k3⟩
          by_cases hc : ch = i
          · exact hB ⟨rfl, hc⟩
          · exact hA ⟨rfl, by omega, k3⟩
    · rw [if_neg he]
      obtain ⟨st', g1, g2, g3⟩ := loop_ok hf ha hp fuel (i + 1) st hl (by omega)
      refine ⟨st', g1, g2, fun a ch j hch hj => ?_⟩
      rw [g3 a ch j hch hj]
      by_cases hA : w.address = a ∧ i + 1 ≤ ch ∧ w.chunkEnable.getD ch false = true
      · rw [if_pos hA, if_pos ⟨hA.1, by omega, hA.2.2⟩]
      · rw [if_neg hA, if_neg]
        rintro ⟨k1, k2, k3⟩
        by_cases hc : ch = i
        · subst hc; exact he k3
        · exact hA ⟨k1, by omega, k3⟩

theorem write_ok (hf : Fits c) {st : List Byte} (hl : st.length = total c) (w : Write) : ∃ st', writeChunks c st w = some st' ∧
    st'.length = total c ∧ ∀ a ch j, ch < c.chunks → j < chunkBytes c →
      st'[a * rowBytes c + ch * chunkBytes c + j]? =
        if w.takes c ∧ w.address = a ∧ w.chunkEnable.getD ch false = true then w.payload[ch * chunkBytes c + j]?
        else st[a * rowBytes c + ch * chunkBytes c + j]? := by
  unfold writeChunks
  by_cases h1 : (!w.enable || !decide (w.address < c.rows)) = true
  · rw [if_pos h1]
    refine ⟨st, rfl, hl, fun a ch j _ _ => ?_⟩
    rw [if_neg]
    rintro ⟨⟨k1, k2, _⟩, _⟩
    simp [k1, k2] at h1
  rw [if_neg h1]
  have h1 : w.enable = true ∧ w.address < c.rows := by simpa using h1
  by_cases h2 : chunkBytes c = 0 ∨ c.chunks = 0
  · rw [if_pos h2]
    exact ⟨st, rfl, hl, fun a ch j k1 k2 => by omega⟩
  rw [if_neg h2]
  by_cases h3 : w.payload.length < rowBytes c
  · rw [if_pos h3]
    exact ⟨st, rfl, hl, fun a ch j _ _ => by rw [if_neg]; rintro ⟨⟨_, _, k, _⟩, _⟩; omega⟩
  rw [if_neg h3]
  by_cases h4 : w.chunkEnable.length < c.chunks
  · rw [if_pos h4]
    exact ⟨st, rfl, hl, fun a ch j _ _ => by rw [if_neg]; rintro ⟨⟨_, _, _, k⟩, _⟩; omega⟩
  rw [if_neg h4]
  obtain ⟨st', g1, g2, g3⟩ := loop_ok hf h1.2 (by omega) c.chunks 0 st hl (by omega)
  refine ⟨st', g1, g2, fun a ch j k1 k2 => ?_⟩
  rw [g3 a ch j k1 k2]
  have ht : w.takes c := ⟨h1.1, h1.2, by omega, by omega⟩
  by_cases hA : w.address = a ∧ w.chunkEnable.getD ch false = true
  · rw [if_pos ⟨hA.1, Nat.zero_le _, hA.2⟩, if_pos ⟨ht, hA⟩]
  · rw [if_neg (fun h => hA ⟨h.1, h.2.2⟩), if_neg (fun h => hA h.2)]

theorem copy_ok {st : List Byte} (hl : st.length = total c) {a : Nat} (ha : a < c.rows) : ∃ row, copyRow c st a = some row ∧
    row.length = rowBytes c ∧ ∀ p < rowBytes c, row[p]? = st[a * rowBytes c + p]? := by
  unfold copyRow
  by_cases h : rowBytes c = 0
  · rw [if_neg (fun k => k.2 h)]
    exact ⟨_, rfl, List.length_replicate, fun p hp => by omega⟩
  · rw [if_pos ⟨ha, h⟩]
    have e1 : (a + 1) * rowBytes c ≤ c.rows * rowBytes c := Nat.mul_le_mul_right _ ha
    rw [Nat.add_mul, Nat.one_mul] at e1
    obtain ⟨r, h1, h2, h3⟩ := memcpy_ok (dst := List.replicate (rowBytes c) 0#8) (src := st) (d := 0) (s := a * rowBytes c) (n := rowBytes c)
      (by rw [List.length_replicate]; omega) (by rw [hl, total]; exact e1)
    refine ⟨r, h1, by rw [h2, List.length_replicate], fun p hp => ?_⟩
    rw [h3, if_pos ⟨Nat.zero_le _, by omega⟩, Nat.sub_zero]

theorem blank_length : (blank c).length = total c := List.length_replicate

/-! ### The seed -/

theorem shl_fix {x : BitVec 32} {n : Nat} (hn : 0 < n) (h : x = x <<< n) : x = 0#32 := by
  have : ∀ m, x = x <<< (n * m) := by
    intro m
    induction m with
    | zero => simp
    | succ m ih => rw [Nat.mul_succ, BitVec.shiftLeft_add, ← ih]; exact h
  rw [this 32, BitVec.shiftLeft_eq_zero (by have := Nat.mul_le_mul_right 32 hn; omega)]

theorem shr_fix {x : BitVec 32} {n : Nat} (hn : 0 < n) (h : x = x >>> n) : x = 0#32 := by
  have : ∀ m, x = x >>> (n * m) := by
    intro m
    induction m with
    | zero => simp
    | succ m ih => rw [Nat.mul_succ, BitVec.shiftRight_add, ← ih]; exact h
  rw [this 32, BitVec.ushiftRight_eq_zero (by have := Nat.mul_le_mul_right 32 hn; omega)]

theorem xor_zero {x y : BitVec 32} (h : x ^^^ y = 0#32) : x = y := by
  have := congrArg (· ^^^ y) h
  simpa [BitVec.xor_assoc] using this

theorem advance_ne {x : BitVec 32} (h : x ≠ 0#32) : Table.advance x ≠ 0#32 := by
  unfold Table.advance
  simp only
  intro e
  have e1 := shl_fix (by decide) (xor_zero e)
  have e2 := shr_fix (by decide) (xor_zero e1)
  exact h (shl_fix (by decide) (xor_zero e2))

/-! ### Histories -/

theorem all_ok (hf : Fits c) (a ch j : Nat) (hch : ch < c.chunks) (hj : j < chunkBytes c) :
    ∀ (ws : List Write) (st : List Byte) (v : Byte), st.length = total c → st[a * rowBytes c + ch * chunkBytes c + j]? = some v →
      ∃ st', writeAll c st ws = some st' ∧ st'.length = total c ∧ st'[a * rowBytes c + ch * chunkBytes c + j]? =
        some (ws.foldl (fun b w => if w.takes c ∧ w.address = a ∧ w.chunkEnable.getD ch false = true then
          w.payload.getD (ch * chunkBytes c + j) 0#8 else b) v)
  | [], st, v, hl, hv => ⟨st, rfl, hl, hv⟩
  | w :: ws, st, v, hl, hv => by
    obtain ⟨st1, h1, h2, h3⟩ := write_ok hf hl w
    rw [writeAll, h1, Option.bind_some, List.foldl_cons]
    refine all_ok hf a ch j hch hj ws st1 _ h2 ?_
    rw [h3 a ch j hch hj]
    by_cases hA : w.takes c ∧ w.address = a ∧ w.chunkEnable.getD ch false = true
    · rw [if_pos hA, if_pos hA]
      have : ch * chunkBytes c + j < w.payload.length := by
        have e := hA.1.2.2.1
        rw [row_eq hf] at e
        have e2 : (ch + 1) * chunkBytes c ≤ c.chunks * chunkBytes c := Nat.mul_le_mul_right _ hch
        rw [Nat.add_mul, Nat.one_mul] at e2
        omega
      rw [List.getD_eq_getElem?_getD, List.getElem?_eq_getElem this]; rfl
    · rw [if_neg hA, if_neg hA]; exact hv

theorem all_length (hf : Fits c) : ∀ (ws : List Write) (st : List Byte), st.length = total c →
    ∃ st', writeAll c st ws = some st' ∧ st'.length = total c
  | [], st, hl => ⟨st, rfl, hl⟩
  | w :: ws, st, hl => by
    obtain ⟨st1, h1, h2, _⟩ := write_ok hf hl w
    rw [writeAll, h1, Option.bind_some]
    exact all_length hf ws st1 h2

theorem choose_pos (t : Timing) (x : BitVec 32) : 1 ≤ (chooseLatency t x).1 := by
  have hc : ∀ y, 1 ≤ clamp y := fun y => by unfold clamp; split <;> omega
  unfold chooseLatency
  split
  · exact hc _
  · exact hc _

/-! ### The SRAM -/

theorem seq_ok (hf : Fits c) {t : Timing} {s : Sram} (hl : s.st.length = total c) (r : Read) (w : Write) :
    ∃ s', Sram.seq c t s r w = some s' ∧ s'.st.length = total c ∧ writeChunks c s.st w = some s'.st := by
  obtain ⟨st, h1, h2, _⟩ := write_ok hf hl w
  unfold Sram.seq
  rw [h1, Option.map_some]
  refine ⟨_, rfl, ?_⟩
  (repeat' split) <;> exact ⟨h2, rfl⟩

/-- While a read is under way the inputs other than the writes do not matter. -/
theorem wait_ok (hf : Fits c) {t : Timing} : ∀ (ins : List (Read × Write)) (s : Sram), s.st.length = total c → s.pend = true →
    ins.length ≤ s.delay → ∃ s', Sram.run c t s ins = some s' ∧ s'.pend = true ∧ s'.addr = s.addr ∧ s'.delay = s.delay - ins.length ∧
      s'.st.length = total c ∧ writeAll c s.st (ins.map (·.2)) = some s'.st
  | [], s, hl, hp, _ => ⟨s, rfl, hp, rfl, rfl, hl, rfl⟩
  | x :: ins, s, hl, hp, hd => by
    rw [List.length_cons] at hd
    obtain ⟨s1, h1, h2, h3⟩ := seq_ok hf (t := t) hl x.1 x.2
    have hx : s1.pend = true ∧ s1.addr = s.addr ∧ s1.delay = s.delay - 1 := by
      unfold Sram.seq at h1
      rw [h3, Option.map_some, Option.some.injEq, if_neg (by simp [hp]), if_neg (by
        have : s.delay ≠ 0 := by omega
        simp [this]), if_pos (by
        have : 0 < s.delay := by omega
        simp [hp, this])] at h1
      rw [← h1]
      exact ⟨hp, rfl, rfl⟩
    obtain ⟨s2, g1, g2, g3, g4, g5, g6⟩ := wait_ok hf (t := t) ins s1 h2 hx.1 (by rw [hx.2.2]; omega)
    refine ⟨s2, by rw [Sram.run, h1, Option.bind_some, g1], g2, g3.trans hx.2.1, ?_, g5, ?_⟩
    · rw [g4, hx.2.2, List.length_cons]; omega
    · rw [List.map_cons, writeAll, h3, Option.bind_some]; exact g6

theorem hold_ok (hf : Fits c) {t : Timing} : ∀ (ins : List (Read × Write)) (s : Sram), s.st.length = total c → s.pend = true →
    s.delay = 0 → (∀ x ∈ ins, x.1.enable = true) → ∃ s', Sram.run c t s ins = some s' ∧ s'.pend = true ∧ s'.addr = s.addr ∧ s'.delay = 0 ∧
      s'.st.length = total c ∧ writeAll c s.st (ins.map (·.2)) = some s'.st
  | [], s, hl, hp, hd, _ => ⟨s, rfl, hp, rfl, hd, hl, rfl⟩
  | x :: ins, s, hl, hp, hd, he => by
    obtain ⟨s1, h1, h2, h3⟩ := seq_ok hf (t := t) hl x.1 x.2
    have hx : s1.pend = true ∧ s1.addr = s.addr ∧ s1.delay = 0 := by
      unfold Sram.seq at h1
      rw [h3, Option.map_some, Option.some.injEq, if_neg (by simp [hp]), if_neg (by simp [he x (List.mem_cons_self ..)]),
        if_neg (by simp [hd])] at h1
      rw [← h1]
      exact ⟨hp, rfl, hd⟩
    obtain ⟨s2, g1, g2, g3, g4, g5, g6⟩ := hold_ok hf (t := t) ins s1 h2 hx.1 hx.2.2 (fun y hy => he y (List.mem_cons_of_mem _ hy))
    refine ⟨s2, by rw [Sram.run, h1, Option.bind_some, g1], g2, g3.trans hx.2.1, g4, g5, ?_⟩
    rw [List.map_cons, writeAll, h3, Option.bind_some]; exact g6

/-- The contents depend on the writes alone. -/
theorem run_writes (hf : Fits c) {t : Timing} : ∀ (l : List (Read × Write)) (s s' : Sram), s.st.length = total c → Sram.run c t s l = some s' →
    s'.st.length = total c ∧ writeAll c s.st (l.map (·.2)) = some s'.st
  | [], s, s', hl, h => by cases h; exact ⟨hl, rfl⟩
  | x :: l, s, s', hl, h => by
    obtain ⟨s1, h1, h2, h3⟩ := seq_ok hf (t := t) hl x.1 x.2
    rw [Sram.run, h1, Option.bind_some] at h
    obtain ⟨g1, g2⟩ := run_writes hf l s1 s' h2 h
    exact ⟨g1, by rw [List.map_cons, writeAll, h3, Option.bind_some, g2]⟩

theorem run_app {t : Timing} : ∀ (l1 l2 : List (Read × Write)) (s : Sram),
    Sram.run c t s (l1 ++ l2) = (Sram.run c t s l1).bind fun s => Sram.run c t s l2
  | [], _, _ => rfl
  | o :: l1, l2, s => by
    rw [List.cons_append, Sram.run, Sram.run, Option.bind_assoc]
    congr 1
    funext s'
    exact run_app l1 l2 s'

/-- The row as the writes have left it. -/
theorem row_latest (hf : Fits c) {ws : List Write} {st : List Byte} (h : writeAll c (blank c) ws = some st) {a : Nat} (ha : a < c.rows) :
    ∃ row, copyRow c st a = some row ∧ row.length = c.chunks * chunkBytes c ∧ ∀ ch < c.chunks, ∀ j < chunkBytes c,
      row[ch * chunkBytes c + j]? = some (latest c ws a ch j) := by
  obtain ⟨st', e, hl⟩ := all_length hf ws (blank c) blank_length
  rw [h] at e
  cases e
  obtain ⟨row, h1, h2, h3⟩ := copy_ok hl ha
  refine ⟨row, h1, by rw [h2, row_eq hf], fun ch hch j hj => ?_⟩
  have hlt := pos_lt ha hch hj
  rw [← row_eq hf] at hlt
  have e2 : (ch + 1) * chunkBytes c ≤ c.chunks * chunkBytes c := Nat.mul_le_mul_right _ hch
  rw [Nat.add_mul, Nat.one_mul] at e2
  rw [h3 _ (by rw [row_eq hf]; omega), ← Nat.add_assoc]
  obtain ⟨st', e, _, g⟩ := all_ok hf a ch j hch hj ws (blank c) 0#8 blank_length (by
    rw [blank, List.getElem?_replicate, total, if_pos hlt])
  rw [h] at e
  cases e
  exact g

theorem sram_comb {s : Sram} (hp : s.pend = true) (hd : s.delay = 0) (ha : s.addr < c.rows) :
    Sram.comb c s = (copyRow c s.st s.addr).map some := by
  unfold Sram.comb
  rw [if_neg (by simp [hp, hd, ha])]

/-! ### The last-level cache -/

variable {k : LlcCfg}

theorem llc_chunk {n r : Nat} : chunkBytes (llcCfg n r) = 1 := by
  show (8 + 7) % 2 ^ 32 / 8 = 1
  decide

/-- The sizes of the rows do not wrap. -/
theorem llc_fits {n r : Nat} (h : r < 2 ^ 32) : Fits (llcCfg n r) := ⟨by show 8 + 7 < 2 ^ 32; decide, by
  rw [llc_chunk]
  show r * 1 < 2 ^ 32
  omega⟩

theorem llc_row {n r : Nat} (h : r < 2 ^ 32) : rowBytes (llcCfg n r) = r := by
  rw [row_eq (llc_fits h), llc_chunk]
  show r * 1 = r
  omega

theorem make_ok (q : Req) (row unit n : Nat) (hrow : row < 2 ^ 32) {p x : Nat} (hp : p < row) (hx : x < n) :
    (((makeWrite q row unit).takes (llcCfg n row) ∧ (makeWrite q row unit).address = x ∧ (makeWrite q row unit).chunkEnable.getD p false = true) ↔
      (q.enable = true ∧ q.write = true ∧ q.index = x ∧ q.way * unit ≤ p ∧ p - q.way * unit < q.payload.length ∧
        q.byteEnable.getD (p - q.way * unit) false = true)) ∧
    (q.way * unit ≤ p → q.enable = true → q.write = true → p - q.way * unit < q.payload.length →
      (makeWrite q row unit).payload[p]? = q.payload[p - q.way * unit]?) := by
  have hb : (if unit = 0 then 0 else q.way * unit) = q.way * unit := by
    by_cases h : unit = 0
    · rw [if_pos h, h, Nat.mul_zero]
    · rw [if_neg h]
  unfold makeWrite Write.takes
  simp only [hb, llc_row hrow]
  generalize q.way * unit = B
  by_cases h0 : (q.enable && q.write) = true
  case neg =>
    rw [if_pos (by simp [h0])]
    constructor
    · constructor
      · rintro ⟨⟨e, _⟩, _⟩; exact absurd e h0
      · rintro ⟨e1, e2, _⟩; exact absurd (by rw [e1, e2]; rfl) h0
    · intro _ e1 e2 _; exact absurd (by rw [e1, e2]; rfl) h0
  have hen : q.enable = true ∧ q.write = true := by simpa using h0
  by_cases hn : min q.payload.length (if B < row then row - B else 0) = 0
  · rw [if_pos (by simp [hn])]
    have hno : ¬(B ≤ p ∧ p - B < q.payload.length) := by
      rintro ⟨e1, e2⟩
      rw [if_pos (by omega)] at hn
      omega
    constructor
    · constructor
      · rintro ⟨_, _, e⟩
        simp [List.getD_eq_getElem?_getD, hp] at e
      · rintro ⟨_, _, _, e1, e2, _⟩; exact absurd ⟨e1, e2⟩ hno
    · intro e1 _ _ e2; exact absurd ⟨e1, e2⟩ hno
  · rw [if_neg (by simp [h0, hn])]
    have hB : B < row := by
      by_cases h : B < row
      · exact h
      · rw [if_neg h] at hn; omega
    rw [if_pos hB] at hn ⊢
    generalize hm : min q.payload.length (row - B) = m at hn ⊢
    have hchunks : (llcCfg n row).chunks = row := rfl
    have hrows : (llcCfg n row).rows = n := rfl
    simp only [hchunks, hrows]
    have lp : (List.replicate B 0#8 ++ q.payload.take m ++ List.replicate (row - B - m) 0#8).length = row := by
      simp only [List.length_append, List.length_replicate, List.length_take]; omega
    have le : (List.replicate B false ++ q.byteEnable.take m ++ List.replicate (row - B - min q.byteEnable.length m) false).length = row := by
      simp only [List.length_append, List.length_replicate, List.length_take]; omega
    have hpay : B ≤ p → p - B < q.payload.length →
        (List.replicate B 0#8 ++ q.payload.take m ++ List.replicate (row - B - m) 0#8)[p]? = q.payload[p - B]? := by
      intro e1 e2
      rw [List.getElem?_append_left (by simp only [List.length_append, List.length_replicate, List.length_take]; omega),
        List.getElem?_append_right (by rw [List.length_replicate]; exact e1), List.length_replicate, List.getElem?_take, if_pos (by omega)]
    have hbe : (List.replicate B false ++ q.byteEnable.take m ++ List.replicate (row - B - min q.byteEnable.length m) false).getD p false = true ↔
        B ≤ p ∧ p - B < q.payload.length ∧ q.byteEnable.getD (p - B) false = true := by
      rw [List.getD_eq_getElem?_getD]
      by_cases h1 : p < B
      · rw [List.getElem?_append_left (by simp only [List.length_append, List.length_replicate]; omega),
          List.getElem?_append_left (by rw [List.length_replicate]; exact h1), List.getElem?_replicate, if_pos h1]
        constructor
        · intro e; cases e
        · rintro ⟨e, _⟩; omega
      · by_cases h2 : p - B < min q.byteEnable.length m
        · rw [List.getElem?_append_left (by simp only [List.length_append, List.length_replicate, List.length_take]; omega),
            List.getElem?_append_right (by rw [List.length_replicate]; omega), List.length_replicate, List.getElem?_take, if_pos (by omega),
            List.getD_eq_getElem?_getD]
          constructor
          · intro e; exact ⟨by omega, by omega, e⟩
          · rintro ⟨_, _, e⟩; exact e
        · rw [List.getElem?_append_right (by simp only [List.length_append, List.length_replicate, List.length_take]; omega),
            List.getElem?_replicate]
          constructor
          · intro e
            split at e <;> cases e
          · rintro ⟨_, e2, e3⟩
            rw [List.getD_eq_getElem?_getD, List.getElem?_eq_none (by omega)] at e3
            cases e3
    constructor
    · constructor
      · rintro ⟨_, e1, e2⟩
        exact ⟨hen.1, hen.2, e1, hbe.1 e2⟩
      · rintro ⟨_, _, e1, e2⟩
        exact ⟨⟨h0, by rw [e1]; exact hx, by rw [lp]; exact Nat.le_refl _, by rw [le]; exact Nat.le_refl _⟩, e1, hbe.2 e2⟩
    · intro e1 _ _ e2; exact hpay e1 e2

/-- The storage of every table has its size. -/
def Sized (k : LlcCfg) (s : Llc) : Prop := ∀ b, (s.tab b).length = total (llcCfg k.sets (k.row b))

theorem advance_tab (s : Llc) (o : Out) : (Llc.advance k s o).tab = s.tab := by
  unfold Llc.advance
  simp only
  (repeat' split) <;> rfl

theorem llc_seq (hk : ∀ b, k.row b < 2 ^ 32) {s : Llc} (hs : Sized k s) {o : Out} (ho : o.invalidate = false) (hok : o.ok = true) :
    ∃ t : Tab → List Byte, (∀ b, writeChunks (llcCfg k.sets (k.row b)) (s.tab b) (makeWrite (o.req b) (k.row b) (k.unit b)) = some (t b)) ∧
      Llc.seq k s o = some (Llc.advance k { s with tab := t } o) := by
  have h b := write_ok (llc_fits (n := k.sets) (hk b)) (hs b) (makeWrite (o.req b) (k.row b) (k.unit b))
  obtain ⟨d, hd, _⟩ := h .data
  obtain ⟨m, hm, _⟩ := h .tags
  obtain ⟨v, hv, _⟩ := h .valid
  obtain ⟨r, hr, _⟩ := h .repl
  refine ⟨fun | .data => d | .tags => m | .valid => v | .repl => r, fun b => by cases b <;> assumption, ?_⟩
  unfold Llc.seq
  rw [if_neg (by simp [ho])]
  simp only [hd, hm, hv, hr, Option.bind_some, hok, if_true]
  rfl

theorem seq_cases {s s' : Llc} {o : Out} (h : Llc.seq k s o = some s') : (o.invalidate = true ∧ s' = Llc.init k) ∨
    (o.invalidate = false ∧ o.ok = true) := by
  unfold Llc.seq at h
  cases ho : o.invalidate with
  | true => rw [ho, if_pos rfl] at h; exact .inl ⟨rfl, (Option.some.inj h).symm⟩
  | false =>
    refine .inr ⟨rfl, ?_⟩
    rw [ho, if_neg (by simp)] at h
    simp only [Option.bind_eq_some_iff] at h
    obtain ⟨_, _, _, _, _, _, _, _, h⟩ := h
    by_cases hok : o.ok = true
    · exact hok
    · rw [if_neg hok] at h; cases h

theorem sized_seq (hk : ∀ b, k.row b < 2 ^ 32) {s s' : Llc} {o : Out} (hs : Sized k s) (h : Llc.seq k s o = some s') : Sized k s' := by
  rcases seq_cases h with ⟨_, rfl⟩ | ⟨h1, h2⟩
  · exact fun b => blank_length
  · obtain ⟨t, ht, e⟩ := llc_seq hk hs h1 h2
    rw [e] at h
    cases h
    intro b
    rw [advance_tab]
    obtain ⟨st, g1, g2, _⟩ := write_ok (llc_fits (n := k.sets) (hk b)) (hs b) (makeWrite (o.req b) (k.row b) (k.unit b))
    rw [ht b] at g1
    cases g1
    exact g2

theorem byte_seq (hk : ∀ b, k.row b < 2 ^ 32) {s s' : Llc} {o : Out} (hs : Sized k s) (h : Llc.seq k s o = some s') (b : Tab) {x p : Nat}
    (hx : x < k.sets) (hp : p < k.row b) {v : Byte} (hv : (s.tab b)[x * k.row b + p]? = some v) :
    (s'.tab b)[x * k.row b + p]? = some (if o.invalidate then 0#8 else
      if (o.req b).enable = true ∧ (o.req b).write = true ∧ (o.req b).index = x ∧ (o.req b).way * k.unit b ≤ p ∧
          p - (o.req b).way * k.unit b < (o.req b).payload.length ∧ (o.req b).byteEnable.getD (p - (o.req b).way * k.unit b) false = true then
        (o.req b).payload.getD (p - (o.req b).way * k.unit b) 0#8 else v) := by
  rcases seq_cases h with ⟨h1, rfl⟩ | ⟨h1, h2⟩
  · rw [if_pos h1]
    show (blank _)[_]? = _
    have := hs b
    have hlt : x * k.row b + p < (s.tab b).length := by
      rcases Nat.lt_or_ge (x * k.row b + p) (s.tab b).length with g | g
      · exact g
      · rw [List.getElem?_eq_none g] at hv; cases hv
    rw [blank, List.getElem?_replicate, if_pos (by omega)]
  · obtain ⟨t, ht, e⟩ := llc_seq hk hs h1 h2
    rw [e] at h
    cases h
    rw [advance_tab, if_neg (by simp [h1])]
    obtain ⟨st, g1, _, g3⟩ := write_ok (llc_fits (n := k.sets) (hk b)) (hs b) (makeWrite (o.req b) (k.row b) (k.unit b))
    rw [ht b] at g1
    cases g1
    have g := g3 x p 0 hp (by rw [llc_chunk]; omega)
    rw [llc_row (hk b), llc_chunk, Nat.mul_one, Nat.add_zero, Nat.add_zero] at g
    show (t b)[x * k.row b + p]? = _
    rw [g]
    obtain ⟨m1, m2⟩ := make_ok (o.req b) (k.row b) (k.unit b) k.sets (hk b) hp hx
    by_cases hA : (o.req b).enable = true ∧ (o.req b).write = true ∧ (o.req b).index = x ∧ (o.req b).way * k.unit b ≤ p ∧
          p - (o.req b).way * k.unit b < (o.req b).payload.length ∧ (o.req b).byteEnable.getD (p - (o.req b).way * k.unit b) false = true
    · rw [if_pos (m1.2 hA), if_pos hA, m2 hA.2.2.2.1 hA.1 hA.2.1 hA.2.2.2.2.1, List.getD_eq_getElem?_getD,
        List.getElem?_eq_getElem hA.2.2.2.2.1]; rfl
    · rw [if_neg (fun h => hA (m1.1 h)), if_neg hA]; exact hv

theorem bytes_run (hk : ∀ b, k.row b < 2 ^ 32) (b : Tab) {x p : Nat} (hx : x < k.sets) (hp : p < k.row b) :
    ∀ (os : List Out) (s s' : Llc) (v : Byte), Sized k s → Llc.run k s os = some s' → (s.tab b)[x * k.row b + p]? = some v →
      Sized k s' ∧ (s'.tab b)[x * k.row b + p]? = some (os.foldl (fun v o => if o.invalidate then 0#8 else
        let q := o.req b
        let at_ := q.way * k.unit b
        if q.enable = true ∧ q.write = true ∧ q.index = x ∧ at_ ≤ p ∧ p - at_ < q.payload.length ∧ q.byteEnable.getD (p - at_) false = true then
          q.payload.getD (p - at_) 0#8 else v) v)
  | [], s, s', v, hs, h, hv => by cases h; exact ⟨hs, hv⟩
  | o :: os, s, s', v, hs, h, hv => by
    rw [Llc.run, Option.bind_eq_some_iff] at h
    obtain ⟨s1, h1, h2⟩ := h
    rw [List.foldl_cons]
    exact bytes_run hk b hx hp os s1 s' _ (sized_seq hk hs h1) h2 (byte_seq hk hs h1 b hx hp hv)

theorem sized_run (hk : ∀ b, k.row b < 2 ^ 32) : ∀ (os : List Out) (s s' : Llc), Sized k s → Llc.run k s os = some s' → Sized k s'
  | [], s, s', hs, h => by cases h; exact hs
  | o :: os, s, s', hs, h => by
    rw [Llc.run, Option.bind_eq_some_iff] at h
    obtain ⟨s1, h1, h2⟩ := h
    exact sized_run hk os s1 s' (sized_seq hk hs h1) h2

theorem sized_init : Sized k (Llc.init k) := fun _ => blank_length

/-- What a cycle without invalidation does to the lookups. -/
theorem ctl_seq (hk : ∀ b, k.row b < 2 ^ 32) {s s' : Llc} {o : Out} (hs : Sized k s) (ho : o.invalidate = false)
    (h : Llc.seq k s o = some s') : ∃ t, s' = Llc.advance k { s with tab := t } o := by
  rcases seq_cases h with ⟨h1, _⟩ | ⟨h1, h2⟩
  · rw [ho] at h1; cases h1
  · obtain ⟨t, _, e⟩ := llc_seq hk hs h1 h2
    rw [e] at h
    exact ⟨t, (Option.some.inj h).symm⟩

theorem quiet_ok {o : Out} (h : o.Quiet) : o.ok = true := by unfold Out.ok; rw [h.2]; rfl

theorem quiet_wait {s : Llc} {o : Out} (ho : o.any = false) (hp : s.pend = true) (hd : 0 < s.delay) (t : Tab → List Byte) :
    Llc.advance k { s with tab := t } o = { s with tab := t, delay := s.delay - 1 } := by
  unfold Llc.advance
  simp [ho, hp, hd]

theorem quiet_next {s : Llc} {o : Out} (ho : o.any = false) (hp : s.pend = true) (hd : s.delay = 0) (hq : s.queued = true)
    (t : Tab → List Byte) :
    Llc.advance k { s with tab := t } o = ⟨t, true, s.qidx, k.first, false, 0⟩ := by
  unfold Llc.advance
  simp [ho, hp, hd, hq]

/-- Quiet cycles while a lookup is under way. -/
theorem quiet_run (hk : ∀ b, k.row b < 2 ^ 32) : ∀ (os : List Out) (s : Llc), Sized k s → (∀ o ∈ os, o.Quiet) → s.pend = true →
    os.length ≤ s.delay → ∃ s', Llc.run k s os = some s' ∧ Sized k s' ∧ s'.pend = true ∧ s'.idx = s.idx ∧ s'.delay = s.delay - os.length ∧
      s'.queued = s.queued ∧ s'.qidx = s.qidx
  | [], s, hs, _, hp, _ => ⟨s, rfl, hs, hp, rfl, rfl, rfl, rfl⟩
  | o :: os, s, hs, hq, hp, hl => by
    rw [List.length_cons] at hl
    have q := hq o (List.mem_cons_self ..)
    obtain ⟨t, _, e⟩ := llc_seq hk hs q.1 (quiet_ok q)
    have hs1 := sized_seq hk hs e
    rw [quiet_wait q.2 hp (by omega)] at e hs1
    obtain ⟨s2, g1, g2, g3, g4, g5, g6, g7⟩ := quiet_run hk os _ hs1 (fun y hy => hq y (List.mem_cons_of_mem _ hy)) hp (by show _ ≤ s.delay - 1; omega)
    refine ⟨s2, by rw [Llc.run, e, Option.bind_some, g1], g2, g3, g4, ?_, g6, g7⟩
    rw [g5, List.length_cons]
    show s.delay - 1 - os.length = _
    omega

theorem answers {s : Llc} (hk : ∀ b, k.row b < 2 ^ 32) (hs : Sized k s) (hp : s.pend = true) (hd : s.delay = 0) (hi : s.idx < k.sets) :
    s.Answers k s.idx := by
  unfold Llc.Answers Llc.comb
  rw [if_neg (by simp [hp, hd])]
  refine ⟨_, rfl, fun b => ?_⟩
  obtain ⟨row, h1, h2, h3⟩ := copy_ok (hs b) (a := s.idx) hi
  rw [llc_row (hk b)] at h2 h3
  refine ⟨row, ?_, h2, h3⟩
  show regComb _ _ _ = _
  unfold regComb
  rw [if_neg (by
    have : s.idx < (llcCfg k.sets (k.row b)).rows := hi
    simp [this]), h1]
  rfl

theorem run_append : ∀ (l1 l2 : List Out) (s : Llc), Llc.run k s (l1 ++ l2) = (Llc.run k s l1).bind fun s => Llc.run k s l2
  | [], _, _ => rfl
  | o :: l1, l2, s => by
    rw [List.cons_append, Llc.run, Llc.run, Option.bind_assoc]
    congr 1
    funext s'
    exact run_append l1 l2 s'

/-- The delay never exceeds that of a new lookup. -/
theorem delay_seq (hk : ∀ b, k.row b < 2 ^ 32) {s s' : Llc} {o : Out} (hs : Sized k s) (hd : s.delay ≤ k.first)
    (h : Llc.seq k s o = some s') : s'.delay ≤ k.first := by
  rcases seq_cases h with ⟨_, rfl⟩ | ⟨h1, h2⟩
  · exact Nat.zero_le _
  · obtain ⟨t, rfl⟩ := ctl_seq hk hs h1 h
    unfold Llc.advance
    simp only
    (repeat' split) <;> simp_all <;> omega

theorem delay_run (hk : ∀ b, k.row b < 2 ^ 32) : ∀ (os : List Out) (s s' : Llc), Sized k s → s.delay ≤ k.first →
    Llc.run k s os = some s' → s'.delay ≤ k.first
  | [], s, s', _, hd, h => by cases h; exact hd
  | o :: os, s, s', hs, hd, h => by
    rw [Llc.run, Option.bind_eq_some_iff] at h
    obtain ⟨s1, h1, h2⟩ := h
    exact delay_run hk os s1 s' (sized_seq hk hs h1) (delay_seq hk hs hd h1) h2

/-- A lookup that is under way, or next in the queue, is answered. -/
theorem due (hk : ∀ b, k.row b < 2 ^ 32) {s : Llc} (hs : Sized k s) (hd : s.delay ≤ k.first) {i : Nat} (hp : s.pend = true)
    (h : s.idx = i ∨ s.queued = true ∧ s.qidx = i) (hi : i < k.sets) : ∃ n, n < 2 * (k.first + 1) ∧ ∀ os : List Out, os.length = n →
      (∀ o ∈ os, o.Quiet) → ∃ s', Llc.run k s os = some s' ∧ s'.Answers k i := by
  rcases h with h | ⟨hq, h⟩
  · refine ⟨s.delay, by omega, fun os ho hQ => ?_⟩
    obtain ⟨s', g1, g2, g3, g4, g5, _⟩ := quiet_run hk os s hs hQ hp (by omega)
    refine ⟨s', g1, ?_⟩
    rw [← h, ← g4]
    exact answers hk g2 g3 (by omega) (by rw [g4, h]; exact hi)
  · refine ⟨s.delay + (1 + k.first), by omega, fun os ho hQ => ?_⟩
    have hsplit : os = os.take s.delay ++ os.drop s.delay := (List.take_append_drop ..).symm
    obtain ⟨s1, g1, g2, g3, g4, g5, g6, g7⟩ := quiet_run hk (os.take s.delay) s hs (fun o h => hQ o (List.mem_of_mem_take h)) hp
      (by rw [List.length_take]; omega)
    rw [List.length_take] at g5
    cases hr : os.drop s.delay with
    | nil =>
      have := congrArg List.length hr
      rw [List.length_drop, List.length_nil] at this
      omega
    | cons o rest =>
      have hlen := congrArg List.length hr
      rw [List.length_drop, List.length_cons] at hlen
      have hQ' : ∀ y ∈ o :: rest, y.Quiet := fun y hy => hQ y (List.mem_of_mem_drop (hr ▸ hy))
      have q := hQ' o (List.mem_cons_self ..)
      obtain ⟨t, _, e⟩ := llc_seq hk g2 q.1 (quiet_ok q)
      have hs1 := sized_seq hk g2 e
      rw [quiet_next q.2 g3 (by omega) (g6.trans hq)] at e hs1
      obtain ⟨s2, f1, f2, f3, f4, f5, _⟩ := quiet_run hk rest _ hs1 (fun y hy => hQ' y (List.mem_cons_of_mem _ hy)) rfl
        (by show _ ≤ k.first; omega)
      have hidx : s2.idx = i := by rw [f4]; exact g7.trans h
      refine ⟨s2, ?_, ?_⟩
      · rw [hsplit, run_append, g1, Option.bind_some, hr, Llc.run, e, Option.bind_some, f1]
      · rw [← hidx]
        refine answers hk f2 f3 ?_ (by rw [hidx]; exact hi)
        rw [f5]
        show k.first - rest.length = 0
        omega

/-- After a lookup has been asked for it is under way or next in the queue. -/
theorem asked {s : Llc} {o : Out} (ho : o.any = true) (t : Tab → List Byte) :
    (Llc.advance k { s with tab := t } o).pend = true ∧
      ((Llc.advance k { s with tab := t } o).idx = (o.req .data).index ∨
        (Llc.advance k { s with tab := t } o).queued = true ∧ (Llc.advance k { s with tab := t } o).qidx = (o.req .data).index) := by
  unfold Llc.advance
  simp only [ho, if_true]
  (repeat' split) <;> simp_all

end Verif.TableProofs

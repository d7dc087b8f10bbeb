import Verif.Proofs.Table
/-
C128: the storage tables return what was last written, a table with latency answers a read exactly after the latency chosen for it.
C129: the tables of the last-level cache: writes, lookups and their queue.
-/
namespace Verif.Props
open Verif.Table Verif.TableProofs

namespace TableEx

/-- Two rows of two chunks of two bytes. -/
def c : Cfg := ⟨2, 2, 12⟩
def w0 : Write := ⟨true, 1, [1#8, 2#8, 3#8, 4#8], [true, true]⟩
def w1 : Write := ⟨true, 1, [9#8, 8#8, 7#8, 6#8], [false, true]⟩
/-- Not carried out: the payload is too short. -/
def w2 : Write := ⟨true, 0, [5#8], [true, true]⟩

theorem fits : Fits c := ⟨by decide, by decide⟩

/-- Four sets; a row of the data table has two ways of two bytes. -/
def k : LlcCfg := ⟨4, 3, fun | .data => 4 | _ => 2, fun | .data => 2 | .tags => 1 | .valid => 0 | .repl => 0⟩
/-- The same with latency 4. -/
def k4 : LlcCfg := ⟨4, 4, k.row, k.unit⟩

theorem krow : ∀ b, k.row b < 2 ^ 32 := by intro b; cases b <;> decide
theorem k4row : ∀ b, k4.row b < 2 ^ 32 := krow

/-- A lookup of set `i`. -/
def look (i : Nat) : Out := ⟨false, fun _ => ⟨true, false, i, 0, [], []⟩⟩
/-- A write of the second byte of way 1 of set 2 of the data table. -/
def put : Out := ⟨false, fun | .data => ⟨true, true, 2, 1, [5#8, 6#8], [false, true]⟩ | _ => {}⟩
/-- A write of the same byte of set 1, and the data table after it. -/
def put1 : Out := ⟨false, fun | .data => ⟨true, true, 1, 1, [5#8, 6#8], [false, true]⟩ | _ => {}⟩
def t1 : List Byte := [0#8, 0#8, 0#8, 0#8, 0#8, 0#8, 0#8, 6#8, 0#8, 0#8, 0#8, 0#8, 0#8, 0#8, 0#8, 0#8]

end TableEx

/-- C128. After any writes since the reset, reading a row gives for every byte the last value written to it, 0 if there was none; no write is outside
the storage. -/
theorem C128_contents {c : Cfg} (hf : Fits c) (ws : List Write) : ∃ st, writeAll c (blank c) ws = some st ∧ ∀ r : Read,
    if r.enable = true ∧ r.address < c.rows then ∃ row, regComb c st r = some (some row) ∧ row.length = c.chunks * chunkBytes c ∧
      ∀ ch < c.chunks, ∀ j < chunkBytes c, row[ch * chunkBytes c + j]? = some (latest c ws r.address ch j)
    else regComb c st r = some none := by
  obtain ⟨st, h, _⟩ := all_length hf ws (blank c) blank_length
  refine ⟨st, h, fun r => ?_⟩
  by_cases hr : r.enable = true ∧ r.address < c.rows
  · rw [if_pos hr]
    obtain ⟨row, h1, h2⟩ := row_latest hf h hr.2
    exact ⟨row, by unfold regComb; rw [if_neg (by simp [hr.1, hr.2]), h1]; rfl, h2⟩
  · rw [if_neg hr]
    unfold regComb
    rw [if_pos]
    by_cases he : r.enable = true
    · have : ¬ r.address < c.rows := fun h => hr ⟨he, h⟩
      simp [this]
    · simp [he]

example : (writeAll TableEx.c (blank TableEx.c) [TableEx.w0, TableEx.w1, TableEx.w2]).bind (regComb TableEx.c · ⟨true, 1⟩) =
    some (some [1#8, 2#8, 7#8, 6#8]) := by decide
example : latest TableEx.c [TableEx.w0, TableEx.w1, TableEx.w2] 1 1 0 = 7#8 ∧ latest TableEx.c [TableEx.w0, TableEx.w1, TableEx.w2] 1 0 1 = 2#8 ∧
    latest TableEx.c [TableEx.w0, TableEx.w1, TableEx.w2] 0 0 0 = 0#8 := by decide

/-- C128, the sizes: when the bytes of a row do not fit 32 bits, a write for an existing row is outside the storage. -/
theorem C128_wraps : ∃ (c : Cfg) (w : Write), c.chunkBits + 7 < 2 ^ 32 ∧ c.chunks < 2 ^ 32 ∧ w.address < c.rows ∧ writeChunks c (blank c) w = none := by
  refine ⟨⟨1, 65536, 524288⟩, ⟨true, 0, [], List.replicate 65536 true⟩, by decide, by decide, by decide, ?_⟩
  have h1 : chunkBytes ⟨1, 65536, 524288⟩ = 65536 := by decide
  have h2 : rowBytes ⟨1, 65536, 524288⟩ = 0 := by unfold rowBytes; rw [h1]; decide
  have h3 : memcpy (blank ⟨1, 65536, 524288⟩) (0 * 0 + 0 * 65536) ([] : List Byte) (0 * 65536) 65536 = none := if_neg (fun h => absurd h.2 (by decide))
  unfold writeChunks
  rw [if_neg (by decide), if_neg (by rw [h1]; decide), if_neg (by rw [h2]; decide), if_neg (by rw [List.length_replicate]; decide)]
  show writeLoop _ _ (65535 + 1) 0 _ = none
  rw [writeLoop, if_pos (by rw [List.getD_eq_getElem?_getD, List.getElem?_replicate, if_pos (by decide)]; rfl), h1, h2]
  show Option.bind (memcpy _ _ _ _ _) _ = none
  rw [h3]
  rfl

/-- C128, latency: at least 1; the configured one, or one of the configured range. -/
theorem C128_latency {t : Timing} (hm : t.min < 2 ^ 32) (hM : t.max < 2 ^ 32) (x : BitVec 32) :
    1 ≤ (chooseLatency t x).1 ∧ (t.random = false → (chooseLatency t x).1 = max 1 t.fixed) ∧
      (t.random = true → max 1 t.min ≤ (chooseLatency t x).1 ∧ (chooseLatency t x).1 ≤ max (max 1 t.min) t.max) := by
  refine ⟨choose_pos t x, fun h => ?_, fun h => ?_⟩
  · unfold chooseLatency
    rw [if_neg (by simp [h])]
    unfold clamp
    simp only
    (repeat' split) <;> omega
  · unfold chooseLatency
    rw [if_pos h]
    have hc : ∀ y, clamp y = max 1 y := fun y => by unfold clamp; split <;> omega
    simp only [hc]
    have hH : (if t.max < max 1 t.min then max 1 t.min else t.max) = max (max 1 t.min) t.max := by split <;> omega
    rw [hH]
    generalize hlo : max 1 t.min = lo
    generalize hhi : max lo t.max = hi
    have e1 : u32 (hi - lo + 1) = hi - lo + 1 := Nat.mod_eq_of_lt (by omega)
    rw [e1]
    have e2 := Nat.mod_lt (Table.advance x).toNat (show 0 < hi - lo + 1 by omega)
    have e3 : u32 (lo + (Table.advance x).toNat % (hi - lo + 1)) = lo + (Table.advance x).toNat % (hi - lo + 1) := Nat.mod_eq_of_lt (by omega)
    rw [e3]
    omega

example : (chooseLatency ⟨1, true, 2, 9⟩ 1#32).1 = 3 ∧ (chooseLatency ⟨7, false, 2, 9⟩ 1#32).1 = 7 ∧ (chooseLatency ⟨0, false, 2, 9⟩ 1#32).1 = 1 := by
  decide

/-- C128, the generator does not get stuck at 0. -/
theorem C128_seed {t : Timing} {x : BitVec 32} (h : x ≠ 0#32) : (chooseLatency t x).2 ≠ 0#32 := by
  unfold chooseLatency
  split
  · exact advance_ne h
  · exact h

example : (chooseLatency ⟨1, true, 2, 9⟩ 1#32).2 = 270369#32 := by decide

/-- C128, table with latency: a read of row `a` taken after any cycles since the reset gets no answer before the chosen latency, and then the row with
everything written up to that cycle, whatever the reads asked for meanwhile. -/
theorem C128_answer {c : Cfg} (hf : Fits c) (t : Timing) {past : List (Read × Write)} {s : Sram} (hs : Sram.run c t (Sram.init c) past = some s)
    (hidle : s.pend = false) {r : Read} (he : r.enable = true) (ha : r.address < c.rows) (w : Write) (ins : List (Read × Write))
    (hn : ins.length + 1 ≤ (chooseLatency t s.seed).1) :
    ∃ s', Sram.run c t s ((r, w) :: ins) = some s' ∧
      if ins.length + 1 < (chooseLatency t s.seed).1 then Sram.comb c s' = some none
      else s'.pend = true ∧ s'.delay = 0 ∧ s'.addr = r.address ∧
        ∃ row, Sram.comb c s' = some (some row) ∧ row.length = c.chunks * chunkBytes c ∧ ∀ ch < c.chunks, ∀ j < chunkBytes c,
        row[ch * chunkBytes c + j]? = some (latest c ((past ++ (r, w) :: ins).map (·.2)) r.address ch j) := by
  obtain ⟨hl, _⟩ := run_writes hf past _ s (show (blank c).length = _ from blank_length) hs
  obtain ⟨s1, h1, h2, h3⟩ := seq_ok hf (t := t) hl r w
  have hx : s1.pend = true ∧ s1.addr = r.address ∧ s1.delay = (chooseLatency t s.seed).1 - 1 := by
    unfold Sram.seq at h1
    rw [h3, Option.map_some, Option.some.injEq, if_pos (by simp [he, hidle, ha])] at h1
    rw [← h1]
    exact ⟨rfl, rfl, rfl⟩
  obtain ⟨s2, g1, g2, g3, g4, g5, _⟩ := wait_ok hf (t := t) ins s1 h2 hx.1 (by omega)
  have hrun : Sram.run c t s ((r, w) :: ins) = some s2 := by rw [Sram.run, h1, Option.bind_some, g1]
  refine ⟨s2, hrun, ?_⟩
  split
  · rename_i hlt
    unfold Sram.comb
    rw [if_pos]
    have : s2.delay ≠ 0 := by omega
    simp [this]
  · have hd : s2.delay = 0 := by omega
    have hadr : s2.addr = r.address := g3.trans hx.2.1
    refine ⟨g2, hd, hadr, ?_⟩
    have hall : Sram.run c t (Sram.init c) (past ++ (r, w) :: ins) = some s2 := by rw [run_app, hs, Option.bind_some, hrun]
    obtain ⟨_, hw⟩ := run_writes hf _ _ s2 (show (blank c).length = _ from blank_length) hall
    obtain ⟨row, k1, k2⟩ := row_latest hf hw ha
    exact ⟨row, by rw [sram_comb g2 hd (by rw [hadr]; exact ha), hadr, k1]; rfl, k2⟩

/-- A read of row 1 with latency 3; the row is written while the read is under way, and another row is asked for. -/
example : ((Sram.run TableEx.c ⟨3, false, 1, 1⟩ (Sram.init TableEx.c) [(⟨true, 1⟩, {}), (⟨false, 0⟩, TableEx.w0), (⟨true, 0⟩, {})]).bind
      (Sram.comb TableEx.c ·) = some (some [1#8, 2#8, 3#8, 4#8])) ∧
    ((Sram.run TableEx.c ⟨3, false, 1, 1⟩ (Sram.init TableEx.c) [(⟨true, 1⟩, {}), (⟨false, 0⟩, TableEx.w0)]).bind
      (Sram.comb TableEx.c ·) = some none) := by decide

/-- C128, the answer stays while a read is asked for - of whatever row - and is always of the row first asked for; one cycle without a read ends it. -/
theorem C128_held {c : Cfg} (hf : Fits c) (t : Timing) {past : List (Read × Write)} {s : Sram} (hs : Sram.run c t (Sram.init c) past = some s)
    (hp : s.pend = true) (hd : s.delay = 0) (ha : s.addr < c.rows) (ins : List (Read × Write)) (he : ∀ x ∈ ins, x.1.enable = true) :
    (∃ s', Sram.run c t s ins = some s' ∧ ∃ row, Sram.comb c s' = some (some row) ∧ ∀ ch < c.chunks, ∀ j < chunkBytes c,
      row[ch * chunkBytes c + j]? = some (latest c ((past ++ ins).map (·.2)) s.addr ch j)) ∧
    ∀ (r : Read) (w : Write), r.enable = false → ∃ s', Sram.run c t s (ins ++ [(r, w)]) = some s' ∧ s'.pend = false ∧ Sram.comb c s' = some none := by
  obtain ⟨hl, _⟩ := run_writes hf past _ s (show (blank c).length = _ from blank_length) hs
  obtain ⟨s1, g1, g2, g3, g4, g5, _⟩ := hold_ok hf (t := t) ins s hl hp hd he
  constructor
  · refine ⟨s1, g1, ?_⟩
    have hall : Sram.run c t (Sram.init c) (past ++ ins) = some s1 := by rw [run_app, hs, Option.bind_some, g1]
    obtain ⟨_, hw⟩ := run_writes hf _ _ s1 (show (blank c).length = _ from blank_length) hall
    obtain ⟨row, k1, _, k2⟩ := row_latest hf hw ha
    exact ⟨row, by rw [sram_comb g2 g4 (by rw [g3]; exact ha), g3, k1]; rfl, k2⟩
  · intro r w hr
    obtain ⟨s2, h1, _, h3⟩ := seq_ok hf (t := t) g5 r w
    have hx : s2.pend = false := by
      have h1' := h1
      unfold Sram.seq at h1'
      rw [h3, Option.map_some, Option.some.injEq, if_neg (by simp [hr]), if_pos (by simp [hr, g2, g4])] at h1'
      rw [← h1']
    refine ⟨s2, by rw [run_app, g1, Option.bind_some, Sram.run, h1, Option.bind_some]; rfl, hx, ?_⟩
    unfold Sram.comb
    rw [if_pos (by simp [hx])]

example : ((Sram.run TableEx.c {} (Sram.init TableEx.c) [(⟨true, 1⟩, TableEx.w0), (⟨true, 0⟩, {}), (⟨true, 0⟩, TableEx.w1)]).bind
      (Sram.comb TableEx.c ·) = some (some [1#8, 2#8, 7#8, 6#8])) ∧
    ((Sram.run TableEx.c {} (Sram.init TableEx.c) [(⟨true, 1⟩, TableEx.w0), (⟨true, 0⟩, {}), (⟨false, 0⟩, TableEx.w1)]).bind
      (Sram.comb TableEx.c ·) = some none) := by decide

/-! ### The last-level cache -/

/-- C129. After any cycles, every byte of the four tables is what the last write of it or invalidation left: a write reaches the enabled bytes of its
way's part of the row and no others. -/
theorem C129_contents {k : LlcCfg} (hk : ∀ b, k.row b < 2 ^ 32) {os : List Out} {s : Llc} (h : Llc.run k (Llc.init k) os = some s) (b : Tab) {x p : Nat}
    (hx : x < k.sets) (hp : p < k.row b) : (s.tab b)[x * k.row b + p]? = some (llcLatest k b os x p) := by
  refine (bytes_run hk b hx hp os (Llc.init k) s 0#8 sized_init h ?_).2
  show (blank _)[_]? = _
  have e1 : (x + 1) * k.row b ≤ k.sets * k.row b := Nat.mul_le_mul_right _ hx
  rw [Nat.add_mul, Nat.one_mul] at e1
  rw [blank, List.getElem?_replicate, if_pos]
  show _ < k.sets * rowBytes _
  rw [llc_row (hk b)]
  omega

example : ((Llc.run TableEx.k (Llc.init TableEx.k) [TableEx.look 1, TableEx.put]).map fun s => s.tab .data) =
    some [0#8, 0#8, 0#8, 0#8, 0#8, 0#8, 0#8, 0#8, 0#8, 0#8, 0#8, 6#8, 0#8, 0#8, 0#8, 0#8] := by decide
example : llcLatest TableEx.k .data [TableEx.look 1, TableEx.put] 2 3 = 6#8 ∧ llcLatest TableEx.k .data [TableEx.look 1, TableEx.put] 2 2 = 0#8 ∧
    llcLatest TableEx.k .data [TableEx.put, { invalidate := true }] 2 3 = 0#8 := by decide

/-- C129, an idle cache: a lookup is answered after exactly the configured latency (at least 1), not before; writes meanwhile are seen. -/
theorem C129_latency {k : LlcCfg} (hk : ∀ b, k.row b < 2 ^ 32) {past : List Out} {s s1 : Llc} (h : Llc.run k (Llc.init k) past = some s)
    (hidle : s.pend = false ∧ s.queued = false) {o : Out} (hi : o.invalidate = false) (ha : o.any = true) (hr : (o.req .data).index < k.sets)
    (h1 : Llc.seq k s o = some s1) (os : List Out) (hQ : ∀ o ∈ os, o.Quiet) (hn : os.length + 1 ≤ max 1 k.latency) :
    ∃ s2, Llc.run k s1 os = some s2 ∧ if os.length + 1 < max 1 k.latency then s2.comb k = none else s2.Answers k (o.req .data).index := by
  have hs := sized_run hk past _ s sized_init h
  have hs1 := sized_seq hk hs h1
  obtain ⟨t, e⟩ := ctl_seq hk hs hi h1
  have hc : s1.pend = true ∧ s1.idx = (o.req .data).index ∧ s1.delay = k.first := by
    rw [e]
    unfold Llc.advance
    simp [ha, hidle.1, hidle.2]
  have hF : k.first + 1 = max 1 k.latency := by unfold LlcCfg.first; split <;> omega
  obtain ⟨s2, g1, g2, g3, g4, g5, _⟩ := quiet_run hk os s1 hs1 hQ hc.1 (by omega)
  refine ⟨s2, g1, ?_⟩
  split
  · unfold Llc.comb
    rw [if_pos]
    have : s2.delay ≠ 0 := by omega
    simp [this]
  · rw [← hc.2.1, ← g4]
    exact answers hk g2 g3 (by omega) (by rw [g4, hc.2.1]; exact hr)

example : ((Llc.run TableEx.k (Llc.init TableEx.k) [TableEx.look 2, {}]).map fun s => (s.comb TableEx.k).isSome) = some false ∧
    ((Llc.run TableEx.k (Llc.init TableEx.k) [TableEx.look 2, {}, TableEx.put]).bind fun s => (s.comb TableEx.k).map fun f => f .data) =
      some (some (some [0#8, 0#8, 0#8, 6#8])) := by decide

/-- C129, any state: a lookup followed by no other lookup and no invalidation is answered within twice the latency.  Missing from the full claim "every
lookup is answered": lookups followed by others, see `C129_lost`. -/
theorem C129_answered_partial {k : LlcCfg} (hk : ∀ b, k.row b < 2 ^ 32) {past : List Out} {s s1 : Llc} (h : Llc.run k (Llc.init k) past = some s)
    {o : Out} (hi : o.invalidate = false) (ha : o.any = true) (hr : (o.req .data).index < k.sets) (h1 : Llc.seq k s o = some s1) :
    ∃ n, n < 2 * max 1 k.latency ∧ ∀ os : List Out, os.length = n → (∀ o ∈ os, o.Quiet) →
      ∃ s2, Llc.run k s1 os = some s2 ∧ s2.Answers k (o.req .data).index := by
  have hs := sized_run hk past _ s sized_init h
  have hd := delay_run hk past _ s sized_init (Nat.zero_le _) h
  have hF : k.first + 1 = max 1 k.latency := by unfold LlcCfg.first; split <;> omega
  have hd1 := delay_seq hk hs hd h1
  have hs1 := sized_seq hk hs h1
  obtain ⟨t, e⟩ := ctl_seq hk hs hi h1
  have hA := asked (k := k) (s := s) ha t
  rw [← e] at hA
  rw [← hF]
  exact due hk hs1 hd1 hA.1 hA.2 hr

/-- Set 1 asked for while set 0 is looked up: answered in the fifth cycle after. -/
example : ((Llc.run TableEx.k (Llc.init TableEx.k) [TableEx.look 0, TableEx.look 1, {}, {}, {}, {}]).map fun s =>
    (s.pend, s.delay, s.idx)) = some (true, 0, 1) := by decide

/-- C129, the full claim fails: set 1 holds a byte that sets 0 and 2 do not have; of lookups of sets 0, 1 and 2 in consecutive cycles the second is never
answered, however long one waits. -/
theorem C129_lost : ∃ (k : LlcCfg) (s : Llc), (∀ b, k.row b < 2 ^ 32) ∧ 2 < k.sets ∧
    Llc.run k (Llc.init k) [TableEx.put1, TableEx.look 0, TableEx.look 1, TableEx.look 2] = some s ∧
    (∀ m ≤ 4, ∃ s', Llc.run k (Llc.init k) ([TableEx.put1, TableEx.look 0, TableEx.look 1, TableEx.look 2].take m) = some s' ∧ s'.comb k = none) ∧
    ∀ n, ∃ s', Llc.run k s (List.replicate n {}) = some s' ∧ ¬ s'.Answers k 1 := by
  refine ⟨TableEx.k4, _, TableEx.k4row, by decide, rfl, ?_, fun n => ?_⟩
  · intro m hm
    rcases m with _ | _ | _ | _ | _ | m
    · exact ⟨_, rfl, rfl⟩
    · exact ⟨_, rfl, rfl⟩
    · exact ⟨_, rfl, rfl⟩
    · exact ⟨_, rfl, rfl⟩
    · exact ⟨_, rfl, rfl⟩
    · omega
  have key : ∀ (n : Nat) (s : Llc), Sized TableEx.k4 s → s.tab .data = TableEx.t1 → (s.idx = 0 ∨ s.idx = 2) →
      (s.queued = true → s.qidx = 2) → ∃ s', Llc.run TableEx.k4 s (List.replicate n {}) = some s' ∧ s'.tab .data = TableEx.t1 ∧
        (s'.idx = 0 ∨ s'.idx = 2) := by
    intro n
    induction n with
    | zero => exact fun s _ h1 h2 _ => ⟨s, rfl, h1, h2⟩
    | succ n ih =>
      intro s hs h0 h1 h2
      obtain ⟨t, ht, e⟩ := llc_seq (o := {}) TableEx.k4row hs rfl rfl
      have hs1 := sized_seq TableEx.k4row hs e
      have ha : Out.any {} = false := rfl
      have hn : ((Llc.advance TableEx.k4 { s with tab := t } {}).idx = 0 ∨ (Llc.advance TableEx.k4 { s with tab := t } {}).idx = 2) ∧
          ((Llc.advance TableEx.k4 { s with tab := t } {}).queued = true → (Llc.advance TableEx.k4 { s with tab := t } {}).qidx = 2) := by
        unfold Llc.advance
        simp only [ha]
        (repeat' split) <;> simp_all
      have htab : (Llc.advance TableEx.k4 { s with tab := t } {}).tab .data = TableEx.t1 := by
        rw [advance_tab, ← h0]
        exact (Option.some.inj (ht .data)).symm
      obtain ⟨s', g1, g2⟩ := ih _ hs1 htab hn.1 hn.2
      exact ⟨s', by rw [List.replicate_succ, Llc.run, e, Option.bind_some, g1], g2⟩
  obtain ⟨s', g1, g2, g3⟩ := key n _ (sized_run (k := TableEx.k4) TableEx.k4row
    [TableEx.put1, TableEx.look 0, TableEx.look 1, TableEx.look 2] _ _ sized_init rfl) (by decide) (by decide) (by decide)
  refine ⟨s', g1, ?_⟩
  rintro ⟨f, hf, hb⟩
  obtain ⟨row, e1, _, e3⟩ := hb .data
  unfold Llc.comb at hf
  split at hf
  · cases hf
  · cases hf
    have e4 := e3 3 (by decide)
    simp only at e1
    rw [g2] at e1 e4
    have e5 : row = [0#8, 0#8, 0#8, 0#8] := by
      rcases g3 with g3 | g3 <;> rw [g3] at e1
      · have : regComb (llcCfg TableEx.k4.sets (TableEx.k4.row .data)) TableEx.t1 ⟨true, 0⟩ = some (some [0#8, 0#8, 0#8, 0#8]) := by decide
        exact Option.some.inj (Option.some.inj (e1.symm.trans this))
      · have : regComb (llcCfg TableEx.k4.sets (TableEx.k4.row .data)) TableEx.t1 ⟨true, 2⟩ = some (some [0#8, 0#8, 0#8, 0#8]) := by decide
        exact Option.some.inj (Option.some.inj (e1.symm.trans this))
    rw [e5] at e4
    exact absurd e4 (by decide)

/-- C129, an invalidation clears the tables and drops all lookups. -/
theorem C129_invalidate {k : LlcCfg} (s : Llc) {o : Out} (h : o.invalidate = true) : ∃ s', Llc.seq k s o = some s' ∧ s'.comb k = none ∧
    s'.pend = false ∧ s'.queued = false ∧ ∀ b, ∀ v ∈ s'.tab b, v = 0#8 := by
  refine ⟨Llc.init k, if_pos h, rfl, rfl, rfl, fun b v hv => List.eq_of_mem_replicate hv⟩

example : ((Llc.run TableEx.k (Llc.init TableEx.k) [TableEx.put, TableEx.look 2, { invalidate := true }, {}, {}]).map fun s =>
    (s.pend, (s.tab .data).contains 6#8)) = some (false, false) := by decide

end Verif.Props

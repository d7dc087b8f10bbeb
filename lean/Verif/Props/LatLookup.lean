import Verif.Proofs.LatLookup
/-
C132: a line that is in the instruction cache is found by a lookup, for every lookup latency the cache can be built with.
C133: the line an instruction fetch asks memory for is the line of the address that was fetched, for every lookup latency.

Both hold for latency 0, the default, and fail for every other latency.
-/
namespace Verif.Props
open Verif.LatLookup Verif.LatLookupSpec Verif.LatLookupProofs
open Verif.Table (chooseLatency)

/-- C132, the contents: for every latency, whatever was last brought into a way and not invalidated since is in the tables, and nothing else is. -/
theorem C132_contents (c : Cfg) (is : List In) (set way : Nat) :
    (if (run c is).valid.st set way then some ((run c is).tag.st set way, (run c is).data.st set way) else none) = held is.reverse set way := by
  have h := holds_run (c := c) is set way
  revert h
  cases held is.reverse set way with
  | none => intro h; simp only at h; simp [h]
  | some p =>
    obtain ⟨t, l⟩ := p
    intro h
    simp only at h
    simp [h.1, h.2.1, h.2.2]

/-- C132 with latency 0: in every cycle in which an answer can be given, the line given is exactly the one that should be found; if none should be
found, none is given. -/
theorem C132_hit_partial (c : Cfg) (h0 : c.lat = 0) (is : List In) (i : In) (pc : Nat) (ha : answerable i)
    (hq : asked (run c is) i = some pc) : hitLine c (run c is) i = found c.ways is.reverse (pc / 2 ^ c.off % 2 ^ c.setBits) i.ppn :=
  hit0 h0 is i pc ha hq

/-- C132 fails with any other latency, fixed or random: after no sequence of cycles, and in no cycle, does a lookup find a line. -/
theorem C132_never (c : Cfg) (h0 : c.lat ≠ 0) (is : List In) (i : In) : hitLine c (run c is) i = none :=
  never h0 is i

/-- C132, for every latency: a request in the slot stays there until it is answered, faults, is cancelled or its miss is over. -/
theorem C132_stays (c : Cfg) (is : List In) (i : In) (hv : (run c is).reqValid = true) (hr : i.reset = false) (hf : i.refetch = false)
    (hi : i.idle = true → hitLine c (run c is) i = none ∧ (i.ppnValid = true → i.pageFault = false)) (hn : i.idle = false → i.ready = false) :
    (run c (is ++ [i])).reqValid = true ∧ (run c (is ++ [i])).reqPc = (run c is).reqPc := by
  rw [run_snoc]
  exact stays _ _ hv hr hf hi hn

def latCfg (n : Nat) : Cfg := { lat := n, off := 6, setBits := 6, ways := 4 }

/-- A line comes in from memory at the end of a miss, and the slot is freed. -/
def latFill (set way : Nat) (tag : BitVec 20) : In :=
  { idle := false, free := false, ready := true, fill := some { index := set, way := way, tag := tag, valid := true, line := [0x13#32] } }

/-- A fetch of set 1 misses, the line comes in; the same address is fetched again. -/
def latRun : List In :=
  [ask 0x80000040, { pc := 0x80000040 }, { pc := 0x80000040, ppnValid := true, ppn := 0x80000#20 }, latFill 1 0 0x80000#20,
   ask 0x80000040, { pc := 0x80000040 }]

/-- The cycle in which the second fetch has its translation. -/
def latAns : In := { pc := 0x80000040, ppnValid := true, ppn := 0x80000#20 }

/-- C132, a lost line: with latency 1 the line is there, the address is asked for, the answer can be given, and it is not. -/
theorem C132_lost : ∃ (c : Cfg) (is : List In) (i : In) (pc : Nat) (l : Line), c.lat ≠ 0 ∧ answerable i ∧ asked (run c is) i = some pc ∧
    found c.ways is.reverse (pc / 2 ^ c.off % 2 ^ c.setBits) i.ppn = some l ∧ hitLine c (run c is) i = none :=
  ⟨latCfg 1, latRun, latAns, 0x80000040, [0x13#32], by decide, by decide, by decide +kernel, by decide +kernel, never (by decide) _ _⟩

-- With latency 0 the same line is found, in the cycle in which it is asked for and from the slot.
example : hitLine (latCfg 0) (run (latCfg 0) [latFill 1 2 0x80000#20]) { want := true, pc := 0x80000040, ppnValid := true, ppn := 0x80000#20 } =
    some [0x13#32] := by decide +kernel
example : answerable latAns ∧ asked (run (latCfg 0) [latFill 1 2 0x80000#20, ask 0x80000040]) latAns = some 0x80000040 ∧
    hitLine (latCfg 0) (run (latCfg 0) [latFill 1 2 0x80000#20, ask 0x80000040]) latAns = some [0x13#32] := by decide +kernel
-- Another page is not found, and nothing is found after an invalidation.
example : hitLine (latCfg 0) (run (latCfg 0) [latFill 1 2 0x80000#20, ask 0x80000040]) { latAns with ppn := 0x80001#20 } = none := by decide +kernel
example : hitLine (latCfg 0) (run (latCfg 0) [latFill 1 2 0x80000#20, { refetch := true, inval := true }, ask 0x80000040]) latAns = none := by
  decide +kernel
-- The contents with a latency.
example : held latRun.reverse 1 0 = some (0x80000#20, [0x13#32]) ∧ (run (latCfg 1) latRun).reqValid = true := by decide +kernel

/-- C133 with latency 0: the line asked for is that of the address in the slot. -/
theorem C133_line_partial (c : Cfg) (h0 : c.lat = 0) (is : List In) (ppn : BitVec 20) (hv : (run c is).reqValid = true) :
    memAddr c (run c is) ppn = lineAddr c ppn (run c is).reqPc := by
  unfold memAddr lineAddr
  rw [(inv0 h0 is).idx hv]
  rfl

/-- C133 with any latency, if the address stays on the input until the lookup is over. -/
theorem C133_held_partial (c : Cfg) (is : List In)
    (hheld : ∀ pre i post, is = pre ++ i :: post → (run c pre).lookPend = true → i.pc = (run c pre).lookPc)
    (ppn : BitVec 20) (hv : (run c is).reqValid = true) : memAddr c (run c is) ppn = lineAddr c ppn (run c is).reqPc := by
  unfold memAddr lineAddr
  rw [idx_held is hheld hv]
  rfl

/-- C133, for every latency: a lookup that waits keeps its address, and when it ends the request in the slot has that address. -/
theorem C133_waits (c : Cfg) (is : List In) (i : In) (hv : (run c is).lookPend = true) (hr : i.reset = false) (hf : i.refetch = false) :
    ((run c (is ++ [i])).lookPend = true ∧ (run c (is ++ [i])).lookPc = (run c is).lookPc) ∨
    ((run c (is ++ [i])).lookPend = false ∧ (run c (is ++ [i])).reqValid = true ∧ (run c (is ++ [i])).reqPc = (run c is).lookPc) := by
  have h0 : c.lat ≠ 0 := fun h => by rw [(inv0 h is).look] at hv; cases hv
  rw [run_snoc]
  exact waits h0 _ _ hv hr hf

theorem lat_or_ne (p x : Nat) (hx : x < 2 ^ 12) (h : x ≠ 0) : p <<< 12 ||| x ≠ p <<< 12 := by
  rw [← Nat.shiftLeft_add_eq_or_of_lt hx]
  omega

/-- C133 fails with any other latency: the front end puts address 0 on the input while the cache is not ready (`quiet`), and then the first fetch, of
any address, waits its latency and asks for the first line of its page; that is another line than the one fetched unless the address is in set 0. -/
theorem C133_wrong (c : Cfg) (h0 : c.lat ≠ 0) (hg : c.off + c.setBits ≤ 12) (pc : Nat) (hs : pc / 2 ^ c.off % 2 ^ c.setBits ≠ 0) (ppn : BitVec 20) :
    ∃ n, (run c (ask pc :: List.replicate n quiet)).reqValid = true ∧ (run c (ask pc :: List.replicate n quiet)).reqPc = pc ∧
      memAddr c (run c (ask pc :: List.replicate n quiet)) ppn = ppn.toNat <<< 12 ∧
      memAddr c (run c (ask pc :: List.replicate n quiet)) ppn ≠ lineAddr c ppn pc := by
  obtain ⟨h1, h2, h3⟩ := first_fetch h0 pc
  have hm : memAddr c (run c (ask pc :: List.replicate ((chooseLatency c.timing 1#32).1 - 1 + 1) quiet)) ppn = ppn.toNat <<< 12 := by
    unfold memAddr
    rw [h3]
    simp
  refine ⟨_, h1, h2, hm, ?_⟩
  rw [hm]
  unfold lineAddr
  have hlt : pc / 2 ^ c.off % 2 ^ c.setBits < 2 ^ c.setBits := Nat.mod_lt _ (Nat.two_pow_pos _)
  have hx : (pc / 2 ^ c.off % 2 ^ c.setBits) <<< c.off < 2 ^ 12 := by
    rw [Nat.shiftLeft_eq]
    calc _ < 2 ^ c.setBits * 2 ^ c.off := (Nat.mul_lt_mul_right (Nat.two_pow_pos _)).2 hlt
      _ = 2 ^ (c.off + c.setBits) := by rw [← Nat.pow_add, Nat.add_comm]
      _ ≤ 2 ^ 12 := Nat.pow_le_pow_right (by decide) hg
  have hn : (pc / 2 ^ c.off % 2 ^ c.setBits) <<< c.off ≠ 0 := by
    rw [Nat.shiftLeft_eq]
    exact Nat.mul_ne_zero hs (Nat.ne_of_gt (Nat.two_pow_pos _))
  exact (lat_or_ne _ _ hx hn).symm

-- A lookup that waits, with another address on the input.
example : (run (latCfg 2) [ask 0x80000040]).lookPend = true ∧ (run (latCfg 2) [ask 0x80000040, ask 0x80000080]).lookPc = 0x80000040 ∧
    (run (latCfg 2) [ask 0x80000040, ask 0x80000080, ask 0x80000080]).reqPc = 0x80000040 := by decide +kernel
-- A request in the slot waits for its translation.
example : (run (latCfg 0) [ask 0x80000040]).reqValid = true ∧ (run (latCfg 0) [ask 0x80000040, {}, {}]).reqPc = 0x80000040 ∧
    (run (latCfg 0) [ask 0x80000040, {}, {}]).reqValid = true := by decide +kernel
-- A fetch of set 1 with latency 3: the first line of the page is asked for.
example : (run (latCfg 3) (ask 0x80000040 :: List.replicate 3 quiet)).reqValid = true ∧
    memAddr (latCfg 3) (run (latCfg 3) (ask 0x80000040 :: List.replicate 3 quiet)) 0x80000#20 = 0x80000000 ∧
    lineAddr (latCfg 3) 0x80000#20 0x80000040 = 0x80000040 := by decide +kernel
example : (latCfg 3).lat ≠ 0 ∧ (latCfg 3).off + (latCfg 3).setBits ≤ 12 ∧ 0x80000040 / 2 ^ (latCfg 3).off % 2 ^ (latCfg 3).setBits ≠ 0 := by decide
-- With latency 0, and with latency 3 and the address held, the right one.
example : (run (latCfg 0) [ask 0x80000040]).reqValid = true ∧ memAddr (latCfg 0) (run (latCfg 0) [ask 0x80000040]) 0x80000#20 = 0x80000040 := by
  decide +kernel
example : (run (latCfg 3) (ask 0x80000040 :: List.replicate 3 { pc := 0x80000040 })).reqValid = true ∧
    memAddr (latCfg 3) (run (latCfg 3) (ask 0x80000040 :: List.replicate 3 { pc := 0x80000040 })) 0x80000#20 = 0x80000040 := by decide +kernel

end Verif.Props

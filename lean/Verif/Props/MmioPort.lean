import Verif.Proofs.MmioPort
/-
C88: device accesses complete once, on time and with their own answer, and stores to external devices are written once.
C89: loads from external devices: the first answer is the right one, but the device is read twice and the second answer
can reach the next access.
-/
namespace Verif.Props
open Verif.Mmio Verif.MmioSpec
open Verif.Device (modeled)

/-- C88.  After the first cycle (in which nothing starts) every run follows `Log`: an access to a modelled device completes
two cycles after it starts, with what the device said in the cycle of the start, unless its load is flushed before; a store
to another device puts its bytes on the AXI port until they are taken, once, and completes two cycles after the answer;
nothing else completes and nothing else is requested. -/
theorem C88_answered (c0 : Cyc) (h0 : c0.start = none) (cs : List Cyc) (o : Orderly (step Sys.init c0) cs) :
    Log .free (trace (step Sys.init c0) cs) := by
  refine log_of_rel cs _ _ ?_ o
  have u : unit Sys.init c0 = none := by rw [unit_free rfl, h0]; simp
  exact step_none rfl u

/-- In the first cycle nothing completes and nothing is requested. -/
theorem C88_reset : done Sys.init = none ∧ Sys.init.port.req = none := ⟨rfl, rfl⟩

namespace MmioRun

/-- A quiet cycle; the devices show `v`. -/
def quiet (v : BitVec 32) : Cyc := ⟨none, false, fun _ _ => v, false, none, false, false⟩
def uart : Acc := ⟨true, 0x10000000#32, 0#32, 4#3, 3⟩
def intc : Acc := ⟨false, 0x1fb00008#32, 0x12345678#32, 1#3, 5⟩
def reset : Sys := step Sys.init (quiet 0#32)

/-- A load of the UART, then a store to the interrupt controller, which is taken after a cycle. -/
def script : List Cyc :=
  [quiet 1#32, { quiet 7#32 with start := some uart }, quiet 8#32, quiet 9#32,
   { quiet 0#32 with start := some intc }, quiet 0#32, { quiet 0#32 with wAcc := true }, quiet 0#32,
   { quiet 0#32 with wResp := true }, quiet 0#32, quiet 0#32, quiet 0#32]

theorem orderly : Orderly reset script := by
  have k : ∀ {o : Option Acc} {s : Sys}, o = none →
      ∀ a, o = some a → s.unc = none ∧ (a.load = true → modeled a.addr = true) := fun h a e => by rw [h] at e; exact nomatch e
  refine ⟨k rfl, fun a e => ?_, k rfl, k rfl, fun a e => ?_, k rfl, k rfl, k rfl, k rfl, k rfl, k rfl, k rfl, trivial⟩
  · cases e; exact ⟨rfl, fun _ => by decide +kernel⟩
  · cases e; exact ⟨rfl, fun h => by cases h⟩

/-- The load gets 7, the value of its first cycle; the two bytes 0x5678 are written once. -/
theorem seen : (trace reset script).map (fun o => (o.done, o.req)) =
    [(none, none), (none, none), (none, none), (some (uart, 7#32), none), (none, none),
     (none, some (.write 0x1fb00008#32 2 0x5678#32 3#64)), (none, some (.write 0x1fb00008#32 2 0x5678#32 3#64)),
     (none, none), (none, none), (none, none), (some (intc, 0#32), none), (none, none)] := by
  decide +kernel

example : Log .free (trace reset script) := C88_answered (quiet 0#32) rfl script orderly

/-- `Orderly` is needed: the port still shows the first answer in the cycle after the access has completed, and an access
started in the very cycle of the completion takes it.  Here the second load gets 1 (the value the first load saw) although
its device shows 5 and more from its start on. -/
theorem C88_needs_gap :
    ((trace reset [{ quiet 1#32 with start := some uart }, quiet 1#32,
        { quiet 5#32 with start := some { uart with idx := 4 } }, quiet 6#32, quiet 7#32, quiet 8#32]).map (·.done)) =
      [none, none, some (uart, 1#32), some ({ uart with idx := 4 }, 1#32), none, none] := by
  decide +kernel

end MmioRun

/-- What a load of this width makes of the word on the bus. -/
def loaded (f3 : BitVec 3) (raw : BitVec 32) : BitVec 32 :=
  match f3.toNat with
  | 0 => (raw.setWidth 8).signExtend 32
  | 1 => (raw.setWidth 16).signExtend 32
  | 4 => (raw.setWidth 8).setWidth 32
  | 5 => (raw.setWidth 16).setWidth 32
  | _ => raw

theorem C89_loaded (f3 : BitVec 3) (raw : BitVec 32) : extract raw f3 = loaded f3 raw := by
  rcases (by decide +revert : f3 = 0#3 ∨ f3 = 1#3 ∨ f3 = 4#3 ∨ f3 = 5#3 ∨ f3 = 2#3 ∨ f3 = 3#3 ∨ f3 = 6#3 ∨ f3 = 7#3) with
    h | h | h | h | h | h | h | h <;> subst h
  · exact extend_eq raw 0xFF#32 0x80#32 0xFFFFFF00#32 8 (by decide) (by decide) (by decide) (by decide)
  · exact extend_eq raw 0xFFFF#32 0x8000#32 0xFFFF0000#32 16 (by decide) (by decide) (by decide) (by decide)
  · exact zero_eq raw 0xFF#32 8 (by decide)
  · exact zero_eq raw 0xFFFF#32 16 (by decide)
  all_goals rfl

/-- C89, the part that holds.  A load from an external device that starts when nothing is owed, after an orderly run, and
is not flushed, asks for its bytes until the request is taken, completes two cycles after the answer with the answer,
extended as its width says, and completes nothing before.  (Missing: that the device is read only once and that the next
access gets its own answer.  The device never is read only once: in the cycle of the completion the request is there
again.) -/
theorem C89_first_answer_partial (b0 : Cyc) (hb : b0.start = none) (bs : List Cyc) (o : Orderly (step Sys.init b0) bs)
    (s : Sys) (hs : s = run (step Sys.init b0) bs) (free : s.unc = none)
    (a : Acc) (ext : modeled a.addr = false) (hl : a.load = true)
    (c0 ca cr c1 c2 : Cyc) (ws ws' : List Cyc) (raw : BitVec 32)
    (h0 : c0.start = some a) (hq : ∀ c ∈ c0 :: ws ++ ca :: ws' ++ [cr, c1], c.kill = false)
    (hw : ∀ c ∈ ws, c.rAcc = false) (ha : ca.rAcc = true) (hw' : ∀ c ∈ ws', c.rResp = none) (hr : cr.rResp = some raw) :
    (trace s (c0 :: ws ++ ca :: ws' ++ [cr, c1, c2])).map (fun o => (o.done, o.req)) =
      (none, none) :: (ws ++ [ca]).map (fun _ => (none, some (.read a.addr (bytes a.f3)))) ++
      (ws' ++ [cr, c1]).map (fun _ => (none, none)) ++
      [(some (a, loaded a.f3 raw), some (.read a.addr (bytes a.f3)))] := by
  obtain ⟨g, hg⟩ := rel_run bs _ .free (step_none rfl (by rw [unit_free rfl, hb]; simp) : Rel (step Sys.init b0) .free) o
  have hf : Rel s .free := by
    rw [← hs] at hg
    cases g with
    | free => exact hg
    | due n a v => exact absurd (free ▸ hg.1) nofun
    | asking a => exact absurd (free ▸ hg.1) nofun
    | waiting a => exact absurd (free ▸ hg.1) nofun
  rw [← C89_loaded]
  exact load_trace s hf a ext hl c0 ca cr c1 c2 ws ws' raw h0 hq hw ha hw' hr

namespace MmioRun

/-- A load from the interrupt controller, which the AXI port serves. -/
def ext : Acc := ⟨true, 0x1fb00004#32, 0#32, 2#3, 1⟩
def rtake (v : BitVec 32) : Cyc := { quiet 0#32 with rAcc := true, rResp := some v }

/-- The run of the load, answered at once: the hypotheses of `C89_first_answer_partial` are met. -/
example : (trace reset [{ quiet 0#32 with start := some ext }, quiet 0#32, rtake 1#32, quiet 0#32, rtake 0xAB#32, quiet 0#32,
    quiet 0#32]).map (fun o => (o.done, o.req)) =
    [(none, none), (none, some (.read 0x1fb00004#32 4)), (none, some (.read 0x1fb00004#32 4)), (none, none), (none, none),
     (none, none), (some (ext, 0xAB#32), some (.read 0x1fb00004#32 4))] :=
  C89_first_answer_partial (quiet 0#32) rfl [] trivial reset rfl rfl ext (by decide +kernel) rfl
    { quiet 0#32 with start := some ext } (rtake 1#32) (rtake 0xAB#32) (quiet 0#32) (quiet 0#32) [quiet 0#32] [quiet 0#32]
    0xAB#32 rfl (by simp [quiet, rtake]) (by simp [quiet]) rfl (by simp [quiet]) rfl

/-- C89 is false as a whole: one load, two reads taken by the interconnect (a register that clears on a read loses an
event), and the answer to the second read, 0xBB, is what the next load gets, from another device, the UART, whose
register shows 0 all the time. -/
theorem C89_read_twice :
    (trace reset [{ quiet 0#32 with start := some ext }, rtake 0#32, rtake 0xAA#32, quiet 0#32, rtake 0#32,
        { quiet 0#32 with start := some uart }, rtake 0xBB#32, quiet 0#32, quiet 0#32]).map (fun o => (o.done, o.req)) =
      [(none, none), (none, some (.read 0x1fb00004#32 4)), (none, none), (none, none),
       (some (ext, 0xAA#32), some (.read 0x1fb00004#32 4)), (none, none), (none, none), (none, none),
       (some (uart, 0xBB#32), none)] := by
  decide +kernel

/-- A flushed load leaves its read behind: the load that starts after the flush gets the flushed load's answer. -/
theorem C89_flushed_answer :
    (trace reset [{ quiet 0#32 with start := some ext }, { quiet 0#32 with rAcc := true, kill := true },
        { quiet 0#32 with start := some uart }, rtake 0xAA#32, quiet 0#32, quiet 0#32]).map (·.done) =
      [none, none, none, none, none, some (uart, 0xAA#32)] := by
  decide +kernel

end MmioRun

end Verif.Props

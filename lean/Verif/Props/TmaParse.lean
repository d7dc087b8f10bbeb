import Verif.Proofs.TmaParse
/-
C138: the top-down figures in the SPEC report are those that the simulator printed under the same names.
-/
namespace Verif.Props
open Verif.TmaParse Verif.TmaParseSpec Verif.TmaParseProofs

/-- C138 holds only by coincidence: for every log that the simulator prints, the report is right exactly when the five figures of the decode side equal
those of the rename side, and the share of external memory equals that of all memory. -/
theorem C138_right_iff (pre post : List Line) (m : Main) (d : Idu) (hp : Foreign post) :
    (∃ t, parse (pre ++ (mainLines m ++ iduLines d) ++ post) = some t ∧ Right m t) ↔
      d.total = m.total ∧ d.frontend = m.frontend ∧ d.backend = m.backend ∧ d.bad = m.bad ∧ d.retiring = m.retiring ∧ m.ext = m.memory := by
  obtain ⟨q, hq⟩ := parse_mid pre post m d hp
  rw [hq]
  constructor
  · rintro ⟨t, ht, h⟩
    cases ht
    obtain ⟨h1, h2, _, _, h5, h6, _, _, _, h10, h11⟩ := h
    exact ⟨h1, h2, h5, h10, h11, h6⟩
  · rintro ⟨h1, h2, h5, h10, h11, h6⟩
    exact ⟨_, rfl, h1, h2, rfl, rfl, h5, h6, rfl, rfl, rfl, h10, h11⟩

/-- What the report has in place of them: the figures of the decode side, and external memory for memory. -/
theorem C138_wrong (pre post : List Line) (m : Main) (d : Idu) (hp : Foreign post) :
    ∃ t, parse (pre ++ (mainLines m ++ iduLines d) ++ post) = some t ∧ t.total = d.total ∧ t.frontend = d.frontend ∧ t.backend = d.backend ∧
      t.bad = d.bad ∧ t.retiring = d.retiring ∧ t.memory = m.ext := by
  obtain ⟨q, hq⟩ := parse_mid pre post m d hp
  exact ⟨_, hq, rfl, rfl, rfl, rfl, rfl, rfl⟩

/-- C138 for five of the figures: they are those printed.  Missing: the other six, which `C138_right_iff` shows to be wrong. -/
theorem C138_detail_partial (pre post : List Line) (m : Main) (d : Idu) (hp : Foreign post) :
    ∃ t, parse (pre ++ (mainLines m ++ iduLines d) ++ post) = some t ∧ t.latency = m.latency ∧ t.bandwidth = m.bandwidth ∧ t.l1 = m.l1 ∧
      t.ext = m.ext ∧ t.core = m.core := by
  obtain ⟨q, hq⟩ := parse_mid pre post m d hp
  exact ⟨_, hq, rfl, rfl, rfl, rfl, rfl⟩

/-- In a log with the first section alone only the share of memory is wrong, unless all of it is external. -/
theorem C138_old_iff (pre post : List Line) (m : Main) (hp : Foreign post) :
    (∃ t, parse (pre ++ mainLines m ++ post) = some t ∧ Right m t) ↔ m.ext = m.memory := by
  obtain ⟨q, hq⟩ := parse_old pre post m hp
  rw [hq]
  constructor
  · rintro ⟨t, ht, h⟩
    cases ht
    exact h.2.2.2.2.2.1
  · intro h
    exact ⟨_, rfl, rfl, rfl, rfl, rfl, rfl, h, rfl, rfl, rfl, rfl, rfl⟩

/-- Half of the slots are lost to memory, a tenth to external memory; the report says a tenth, and takes the front end's share from the decode side. -/
example : let m : Main := ⟨1000, 20, 0, 0, 0, 20, 5, 15, 55, 50, 0, 0, 40, 10, 5, 5, 0, 5, 20⟩
    let d : Idu := ⟨2000, 30, 40, 20, 10⟩
    let post : List Line := [("IQ occupancy".toList, 7)]
    Foreign post ∧ (parse ([("Retiring".toList, 99)] ++ (mainLines m ++ iduLines d) ++ post)).map (fun t => (t.total, t.frontend, t.memory, t.retiring)) =
      some (2000, 30, 10, 10) := by
  refine ⟨?_, by decide +kernel⟩
  intro l hl n hn
  simp only [List.mem_singleton] at hl
  subst hl
  revert n
  decide +kernel

end Verif.Props

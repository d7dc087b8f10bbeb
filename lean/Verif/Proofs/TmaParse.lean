import Verif.Spec.TmaParse
namespace Verif.TmaParseProofs
open Verif.TmaParse Verif.TmaParseSpec

/-- Lines before do not matter, nor do foreign ones after. -/
theorem extract_mid (n : List Char) (hn : n ∈ names) (pre mid post : List Line) (hp : Foreign post) (v : Rat) (h : extract n mid = some v) :
    extract n (pre ++ mid ++ post) = some v := by
  simp only [extract, Option.map_eq_some_iff] at h ⊢
  obtain ⟨l, hl, rfl⟩ := h
  refine ⟨l, ?_, rfl⟩
  have h1 : post.reverse.find? (fun l => n.isSuffixOf l.1) = none := by
    rw [List.find?_eq_none]
    intro x hx hs
    exact hp x (List.mem_reverse.1 hx) n hn (List.isSuffixOf_iff_suffix.1 hs)
  rw [List.reverse_append, List.find?_append, h1, List.reverse_append, List.find?_append, hl]
  rfl

theorem parse_mid (pre post : List Line) (m : Main) (d : Idu) (hp : Foreign post) :
    ∃ q, parse (pre ++ (mainLines m ++ iduLines d) ++ post) = some
      { total := d.total, frontend := d.frontend, latency := m.latency, bandwidth := m.bandwidth, backend := d.backend, memory := m.ext, l1 := m.l1,
        ext := m.ext, core := m.core, bad := d.bad, squash := q, retiring := d.retiring } := by
  refine ⟨(extract "Squash Waste".toList (pre ++ (mainLines m ++ iduLines d) ++ post)).getD 0, ?_⟩
  rw [parse,
    extract_mid "Total Slots".toList (by decide) pre (mainLines m ++ iduLines d) post hp d.total rfl,
    extract_mid "Frontend Bound".toList (by decide) pre (mainLines m ++ iduLines d) post hp d.frontend rfl,
    extract_mid "Backend Bound".toList (by decide) pre (mainLines m ++ iduLines d) post hp d.backend rfl,
    extract_mid "Bad Speculation".toList (by decide) pre (mainLines m ++ iduLines d) post hp d.bad rfl,
    extract_mid "Retiring".toList (by decide) pre (mainLines m ++ iduLines d) post hp d.retiring rfl,
    extract_mid "Fetch Latency".toList (by decide) pre (mainLines m ++ iduLines d) post hp m.latency rfl,
    extract_mid "Fetch Bandwidth".toList (by decide) pre (mainLines m ++ iduLines d) post hp m.bandwidth rfl,
    extract_mid "Memory Bound".toList (by decide) pre (mainLines m ++ iduLines d) post hp m.ext rfl,
    extract_mid "L1 Bound".toList (by decide) pre (mainLines m ++ iduLines d) post hp m.l1 rfl,
    extract_mid "Ext Memory Bound".toList (by decide) pre (mainLines m ++ iduLines d) post hp m.ext rfl,
    extract_mid "Core Bound".toList (by decide) pre (mainLines m ++ iduLines d) post hp m.core rfl]
  rfl

theorem parse_old (pre post : List Line) (m : Main) (hp : Foreign post) :
    ∃ q, parse (pre ++ mainLines m ++ post) = some
      { total := m.total, frontend := m.frontend, latency := m.latency, bandwidth := m.bandwidth, backend := m.backend, memory := m.ext, l1 := m.l1,
        ext := m.ext, core := m.core, bad := m.bad, squash := q, retiring := m.retiring } := by
  refine ⟨(extract "Squash Waste".toList (pre ++ mainLines m ++ post)).getD 0, ?_⟩
  rw [parse,
    extract_mid "Total Slots".toList (by decide) pre (mainLines m) post hp m.total rfl,
    extract_mid "Frontend Bound".toList (by decide) pre (mainLines m) post hp m.frontend rfl,
    extract_mid "Backend Bound".toList (by decide) pre (mainLines m) post hp m.backend rfl,
    extract_mid "Bad Speculation".toList (by decide) pre (mainLines m) post hp m.bad rfl,
    extract_mid "Retiring".toList (by decide) pre (mainLines m) post hp m.retiring rfl,
    extract_mid "Fetch Latency".toList (by decide) pre (mainLines m) post hp m.latency rfl,
    extract_mid "Fetch Bandwidth".toList (by decide) pre (mainLines m) post hp m.bandwidth rfl,
    extract_mid "Memory Bound".toList (by decide) pre (mainLines m) post hp m.ext rfl,
    extract_mid "L1 Bound".toList (by decide) pre (mainLines m) post hp m.l1 rfl,
    extract_mid "Ext Memory Bound".toList (by decide) pre (mainLines m) post hp m.ext rfl,
    extract_mid "Core Bound".toList (by decide) pre (mainLines m) post hp m.core rfl]
  rfl

end Verif.TmaParseProofs

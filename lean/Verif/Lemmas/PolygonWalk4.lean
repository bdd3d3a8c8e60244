import Verif.Lemmas.PolygonWalk3
/- The pieces of an outline whose crossings are all kept. -/
namespace RgbdSlam.PolygonRepair

open Spec

section

variable {ring : List Pt} {turns : List Turn} {t : Table} (hs : Simple ring turns) (hf : Full ring turns t)
include hs hf

omit hf in
theorem corner_ne {e : Key × Vertex} (h : e.1.scale = 0) {z : Passage} (hz : z.1 ∈ turns) (r : Bool) : e ≠ entryOf ring z r := by
  rintro rfl
  exact (along_pos hs hz).ne' h

/-- The first entry is the first corner. -/
theorem first_entry {a : Pt} (ha : ring[0]? = some a) :
    t.vertices[0]? = some ((⟨0, 0, 0, false⟩ : Key), ({ p := a } : Vertex)) := by
  have h0 : ((⟨0, 0, 0, false⟩ : Key), ({ p := a } : Vertex)) ∈ t.vertices := (hf.mem _).2 (Or.inl (entries_get ha))
  have hn : 0 < t.vertices.length := List.length_pos_of_mem h0
  obtain ⟨m, hm⟩ := List.mem_iff_getElem?.1 h0
  rcases Nat.eq_zero_or_pos m with rfl | hpos
  · exact hm
  · exfalso
    have hg : t.vertices[0]? = some t.vertices[0] := List.getElem?_eq_getElem hn
    have hl := (get_less hf.sorted hg hm).2 hpos
    rw [less_iff] at hl
    rcases (hf.mem _).1 (List.mem_of_getElem? hg) with he | ⟨x, r, hx, he⟩
    · obtain ⟨i, p, -, he⟩ := entries_mem he
      rw [he] at hl
      simp at hl
      omega
    · rw [he] at hl
      simp only [entryOf, keyOf] at hl
      have := along_pos hs hx
      rcases hl with hl | ⟨-, hl | ⟨hl, -⟩⟩
      · omega
      · linarith
      · linarith

/-- The last entry is the last corner. -/
theorem last_entry {a : Pt} (hb : ring[ring.length - 1]? = some a) : t.vertices[t.vertices.length - 1]? =
    some ((⟨ring.length - 1, 0, ring.length - 1, false⟩ : Key), ({ p := a } : Vertex)) := by
  have h1 : ((⟨ring.length - 1, 0, ring.length - 1, false⟩ : Key), ({ p := a } : Vertex)) ∈ t.vertices :=
    (hf.mem _).2 (Or.inl (entries_get hb))
  obtain ⟨m, hm⟩ := List.mem_iff_getElem?.1 h1
  have hml := (List.getElem?_eq_some_iff.1 hm).1
  rcases Nat.lt_or_ge m (t.vertices.length - 1) with hlt | hge
  · exfalso
    have hg : t.vertices[t.vertices.length - 1]? = some t.vertices[t.vertices.length - 1] :=
      List.getElem?_eq_getElem (by omega)
    have hl := (get_less hf.sorted hm hg).2 hlt
    rw [less_iff] at hl
    rcases (hf.mem _).1 (List.mem_of_getElem? hg) with he | ⟨x, r, hx, he⟩
    · obtain ⟨i, p, hi, he⟩ := entries_mem he
      have := (List.getElem?_eq_some_iff.1 hi).1
      rw [he] at hl
      simp at hl
      omega
    · rw [he] at hl
      simp only [entryOf, keyOf] at hl
      have := edge_lt hs hx
      omega
  · rw [show t.vertices.length - 1 = m by omega]
    exact hm

theorem closed_vertices (hc : Closed ring) : Closed (t.vertices.map fun e => e.2.p) := by
  obtain ⟨a, ha⟩ : ∃ a, ring.head? = some a := by
    cases h : ring with
    | nil => exact absurd h hc.1
    | cons a l => exact ⟨a, rfl⟩
  have hb : ring.getLast? = some a := by rw [← hc.2]; exact ha
  rw [List.head?_eq_getElem?] at ha
  rw [List.getLast?_eq_getElem?] at hb
  have first := first_entry hs hf ha
  have last := last_entry hs hf hb
  constructor
  · intro h
    rw [List.map_eq_nil_iff] at h
    rw [h] at first
    cases first
  · rw [List.head?_map, List.getLast?_map, List.head?_eq_getElem?, List.getLast?_eq_getElem?, first, last]
    rfl

end

/-- The pieces of an outline whose crossings are all kept. -/
theorem pieces_of_crossings {ring : List Pt} {turns : List Turn} (hs : Simple ring turns) (hk : ∀ u ∈ turns, Kept ring u)
    (hnr : ∀ t, Full ring turns t → ∀ (x : Passage) (m : ℕ), x.1 ∈ turns →
      (stepD t)^[m] (entryOf ring x false) ≠ entryOf ring x.other false) (hc : Closed ring) (hne : turns ≠ []) (fuel : ℕ)
    (hfuel : ring.length + 4 * turns.length + 1 ≤ fuel) :
    ∃ t out, findIntersections ring turns = .ok t ∧ t.starts ≠ [] ∧ generate t fuel fuel t.starts [] = .ok (piecesOf out) ∧
      (∀ r ∈ out, Closed r) ∧ ∀ f, Measure f → (out.map (total f)).sum = total f ring := by
  obtain ⟨t, ht, hf⟩ := full_findIntersections hs hk
  have hlen := hf.length
  obtain ⟨out, h1, h2, h3⟩ := generate_all hs hf (hnr t hf) hne (closed_vertices hs hf hc) fuel
    (by omega) fuel t.starts [] [] List.nodup_nil (by simp) (by simp) (by simp) (by intro p hp; cases hp) (fun f _ => rfl)
    (by omega)
  refine ⟨t, out, ht, ?_, h1, h2, h3⟩
  obtain ⟨u, hu⟩ := List.exists_mem_of_ne_nil _ hne
  intro h
  have : keyOf ring (u, false) false ∈ t.starts := (hf.starts _).2 ⟨(u, false), hu, rfl⟩
  rw [h] at this
  cases this

end RgbdSlam.PolygonRepair

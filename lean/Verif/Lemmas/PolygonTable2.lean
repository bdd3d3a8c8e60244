import Verif.Lemmas.PolygonTable
/- The table of an outline whose crossings are all kept. -/
namespace RgbdSlam.PolygonRepair

open Spec

theorem mem_insertKey {k : Key} {l : List Key} {e : Key} : e ∈ insertKey k l ↔ e = k ∨ e ∈ l := by
  refine ⟨mem_of_insertKey, fun h => ?_⟩
  induction l with
  | nil => simpa [insertKey] using h
  | cons a l ih =>
    unfold insertKey
    split_ifs with h1 h2
    · simpa using h
    · rcases h with rfl | h
      · exact List.mem_cons_of_mem _ (ih (Or.inl rfl))
      · rcases List.mem_cons.1 h with rfl | h
        · exact List.mem_cons_self
        · exact List.mem_cons_of_mem _ (ih (Or.inr h))
    · rcases h with rfl | h
      · have e1 : e = a := less_total (by simpa using h1) (by simpa using h2)
        rw [e1]; exact List.mem_cons_self
      · exact h

theorem length_insertKey (k : Key) (l : List Key) : (insertKey k l).length ≤ l.length + 1 := by
  induction l with
  | nil => simp [insertKey]
  | cons a l ih =>
    unfold insertKey
    split_ifs
    · simp
    · simp; omega
    · simp

/-- The table of an outline with the crossings `done`. -/
structure Full (ring : List Pt) (done : List Turn) (t : Table) : Prop where
  sorted : Sorted t.vertices
  mem : ∀ e, e ∈ t.vertices ↔ e ∈ entries 0 ring ∨ ∃ x : Passage, ∃ r, x.1 ∈ done ∧ e = entryOf ring x r
  starts : ∀ k, k ∈ t.starts ↔ ∃ x : Passage, x.1 ∈ done ∧ k = keyOf ring x false
  sum : ∀ f, Measure f → total f (t.vertices.map fun e => e.2.p) = total f ring
  length : t.vertices.length ≤ ring.length + 4 * done.length
  startsLength : t.starts.length ≤ 2 * done.length

theorem full_addTurn {ring : List Pt} {turns done : List Turn} (hs : Simple ring turns) {t : Table}
    (h : Full ring done t) (hd : ∀ u ∈ done, u ∈ turns) {u : Turn} (hu : u ∈ turns) (hnew : u ∉ done)
    (hk : Kept ring u) : ∃ t', addTurn ring t u = .ok t' ∧ Full ring (u :: done) t' := by
  obtain ⟨a, b, ha, hb, hk⟩ := hk
  have hlt := (hs.1 u hu).1
  have hkept : kept (dist2 u.p a) (dist2 u.p b) (dist2 a b) = true := by
    have h1 := along_pos hs (x := (u, false)) hu
    have h2 := along_pos hs (x := (u, true)) hu
    have e1 : Passage.along ring (u, false) = dist2 u.p a := by
      simp [Passage.along, Passage.edgeOf, ha, dist2]
    have e2 : Passage.along ring (u, true) = dist2 u.p b := by
      simp [Passage.along, Passage.edgeOf, hb, dist2]
    rw [e1] at h1
    rw [e2] at h2
    simp only [kept, Bool.or_eq_true, Bool.and_eq_true, decide_eq_true_eq]
    rcases hk with hk | hk
    · exact Or.inl ⟨h1, hk⟩
    · exact Or.inr ⟨h2, hk⟩
  have kI : ∀ r, keyOf ring (u, false) r = ⟨u.first, dist2 u.p a, u.second, r⟩ := by
    intro r
    simp [keyOf, Passage.along, Passage.edgeOf, Passage.other, ha, dist2]
  have kJ : ∀ r, keyOf ring (u, true) r = ⟨u.second, dist2 u.p b, u.first, r⟩ := by
    intro r
    simp [keyOf, Passage.along, Passage.edgeOf, Passage.other, hb, dist2]
  have oI : Passage.other (u, false) = (u, true) := rfl
  have oJ : Passage.other (u, true) = (u, false) := rfl
  -- the entries that are in the table
  let es : List (Passage × Bool) := done.flatMap fun v => [((v, false), false), ((v, false), true), ((v, true), false), ((v, true), true)]
  have hes : ∀ (x : Passage) (r : Bool), (x, r) ∈ es ↔ x.1 ∈ done := by
    rintro ⟨v, b⟩ r
    simp only [es, List.mem_flatMap]
    constructor
    · rintro ⟨w, hw, h⟩
      simp only [List.mem_cons, Prod.mk.injEq, List.not_mem_nil, or_false] at h
      rcases h with ⟨⟨rfl, -⟩, -⟩ | ⟨⟨rfl, -⟩, -⟩ | ⟨⟨rfl, -⟩, -⟩ | ⟨⟨rfl, -⟩, -⟩ <;> exact hw
    · intro h
      exact ⟨v, h, by cases b <;> cases r <;> simp⟩
  have hlen : es.length = 4 * done.length := by
    simp only [es]
    clear * -
    induction done with
    | nil => rfl
    | cons v l ih => simp only [List.flatMap_cons, List.length_append, ih, List.length_cons, List.length_nil]; omega
  have h0 : Holds ring turns es t.vertices := by
    refine ⟨h.sorted, fun e => ?_, fun x hx => hd _ ((hes x.1 x.2).1 hx), h.sum, by rw [hlen]; exact h.length⟩
    rw [h.mem]
    constructor
    · rintro (h | ⟨x, r, hx, h⟩)
      · exact Or.inl h
      · exact Or.inr ⟨(x, r), (hes x r).2 hx, h⟩
    · rintro (h | ⟨⟨x, r⟩, hx, h⟩)
      · exact Or.inl h
      · exact Or.inr ⟨x, r, (hes x r).1 hx, h⟩
  have hn : ∀ b r, (((u, b), r) : Passage × Bool) ∉ es := fun b r h => hnew ((hes _ _).1 h)
  have h1 := holds_emplace hs h0 (x := (u, false)) hu (r := true) (hn _ _)
  have h2 := holds_emplace hs h1 (x := (u, true)) hu (r := false) (by simp [hn])
  have h3 := holds_emplace hs h2 (x := (u, true)) hu (r := true) (by simp [hn])
  have h4 := holds_emplace hs h3 (x := (u, false)) hu (r := false) (by simp [hn])
  refine ⟨{ vertices := emplace (entryOf ring (u, false) false).1 (entryOf ring (u, false) false).2
              (emplace (entryOf ring (u, true) true).1 (entryOf ring (u, true) true).2
              (emplace (entryOf ring (u, true) false).1 (entryOf ring (u, true) false).2
              (emplace (entryOf ring (u, false) true).1 (entryOf ring (u, false) true).2 t.vertices)))
            starts := insertKey (keyOf ring (u, false) false) (insertKey (keyOf ring (u, true) false) t.starts) }, ?_, ?_⟩
  · unfold addTurn
    simp only [min_eq_left hlt.le, max_eq_right hlt.le, ha, hb, hkept, if_true, entryOf, kI, kJ, oI, oJ]
    rfl
  · refine ⟨h4.sorted, fun e => ?_, fun k => ?_, h4.sum, ?_, ?_⟩
    · simp only
      rw [h4.mem]
      refine or_congr Iff.rfl ⟨?_, ?_⟩
      · rintro ⟨⟨x, r⟩, hx, rfl⟩
        refine ⟨x, r, ?_, rfl⟩
        simp only [List.mem_cons, Prod.mk.injEq] at hx
        rcases hx with ⟨rfl, -⟩ | ⟨rfl, -⟩ | ⟨rfl, -⟩ | ⟨rfl, -⟩ | hx
        · exact List.mem_cons_self
        · exact List.mem_cons_self
        · exact List.mem_cons_self
        · exact List.mem_cons_self
        · exact List.mem_cons_of_mem _ ((hes _ _).1 hx)
      · rintro ⟨⟨v, b⟩, r, hx, rfl⟩
        refine ⟨((v, b), r), ?_, rfl⟩
        rcases List.mem_cons.1 hx with h | h
        · simp only at h
          subst h
          cases b <;> cases r <;> simp
        · simp only [List.mem_cons]
          exact Or.inr (Or.inr (Or.inr (Or.inr ((hes (v, b) r).2 h))))
    · simp only [mem_insertKey, h.starts]
      constructor
      · rintro (rfl | rfl | ⟨x, hx, rfl⟩)
        · exact ⟨(u, false), List.mem_cons_self, rfl⟩
        · exact ⟨(u, true), List.mem_cons_self, rfl⟩
        · exact ⟨x, List.mem_cons_of_mem _ hx, rfl⟩
      · rintro ⟨⟨v, b⟩, hx, rfl⟩
        rcases List.mem_cons.1 hx with h | h
        · simp only at h
          subst h
          cases b
          · exact Or.inl rfl
          · exact Or.inr (Or.inl rfl)
        · exact Or.inr (Or.inr ⟨(v, b), h, rfl⟩)
    · have := h4.length
      simp only [List.length_cons, hlen] at this ⊢
      omega
    · have := h.startsLength
      have l1 := length_insertKey (keyOf ring (u, false) false) (insertKey (keyOf ring (u, true) false) t.starts)
      have l2 := length_insertKey (keyOf ring (u, true) false) t.starts
      simp only [List.length_cons]
      omega

theorem full_foldl {ring : List Pt} {turns : List Turn} (hs : Simple ring turns) (hk : ∀ u ∈ turns, Kept ring u)
    (l done : List Turn) (hl : ∀ u ∈ l, u ∈ turns ∧ u ∉ done) (hnd : l.Nodup) (hd : ∀ u ∈ done, u ∈ turns) {t : Table}
    (h : Full ring done t) :
    ∃ t', l.foldl (fun (r : Outcome Table) turn => r.bind fun t => addTurn ring t turn) (.ok t) = .ok t' ∧
      Full ring (l.reverse ++ done) t' := by
  induction l generalizing done t with
  | nil => exact ⟨t, rfl, h⟩
  | cons u l ih =>
    have hu := hl u List.mem_cons_self
    obtain ⟨t1, e1, h1⟩ := full_addTurn hs h hd hu.1 hu.2 (hk u hu.1)
    have hn := List.nodup_cons.1 hnd
    obtain ⟨t2, e2, h2⟩ := ih (u :: done) (fun v hv => ⟨(hl v (List.mem_cons_of_mem _ hv)).1, fun h => by
      rcases List.mem_cons.1 h with rfl | h
      · exact hn.1 hv
      · exact (hl v (List.mem_cons_of_mem _ hv)).2 h⟩) hn.2 (fun v hv => by
      rcases List.mem_cons.1 hv with rfl | hv
      · exact hu.1
      · exact hd v hv) h1
    refine ⟨t2, ?_, by simpa using h2⟩
    rw [List.foldl_cons, Outcome.bind_ok, e1]
    exact e2

/-- All crossings are in the table. -/
theorem full_findIntersections {ring : List Pt} {turns : List Turn} (hs : Simple ring turns)
    (hk : ∀ u ∈ turns, Kept ring u) : ∃ t, findIntersections ring turns = .ok t ∧ Full ring turns t := by
  have h0 : Full ring [] { vertices := entries 0 ring, starts := [] } := by
    refine ⟨sorted_entries _ _, fun e => by simp, fun k => by simp, ?_, by simp [entries], by simp⟩
    intro f _
    simp only
    rw [entries_points]
  obtain ⟨t, e, h⟩ := full_foldl hs hk turns [] (fun u hu => ⟨hu, by simp⟩) (List.Nodup.of_map _ hs.2.1)
    (fun u hu => by cases hu) h0
  refine ⟨t, ?_, ?_⟩
  · unfold findIntersections
    rw [foldl_entries _ 0 [] (fun e he => by cases he), List.nil_append]
    exact e
  · rw [List.append_nil] at h
    refine ⟨h.sorted, fun e => ?_, fun k => ?_, h.sum, by simpa using h.length, by simpa using h.startsLength⟩
    · rw [h.mem]; simp
    · rw [h.starts]; simp

end RgbdSlam.PolygonRepair

import Verif.Lemmas.ConcaveHull

/-
Properties C57 and C97 to C100: the boundary fitted to a set of points.
-/
namespace RgbdSlam.ConcaveHull

open Spec

/-- A search from any kind of neighbour search, with its points numbered. -/
theorem computeConcaveHull_retry {neighbours : ℕ → Neighbours} {points : List Point} {m : ℕ}
    {r : Option (List Point)} {tried : List ℕ} (h : computeConcaveHull neighbours points m = .ok (r, tried)) :
    3 ≤ points.length ∧
    retry (fun attempt k => concaveHull (neighbours attempt) points k) points.length
      (min m neighboursValues.length) 0 (order.getD 0 0) = .ok (r, tried) := by
  unfold computeConcaveHull at h
  split_ifs at h with h3
  exact ⟨by omega, h⟩

/-- C57 (missing: the second attempt uses the same size as the first, and the last size of the table is
never used, see below).  The sizes tried are, in order, 3 and then the sizes of the table, at most as many as asked for
and none larger than the number of points after the first one; every attempt but the last one failed; the
boundary returned is that of the last attempt; and on failure the limit was reached or the next size is
larger than the number of points. -/
theorem C57_sizes_partial (neighbours : ℕ → Neighbours) (points : List Point) (m : ℕ)
    (r : Option (List Point)) (tried : List ℕ)
    (h : computeConcaveHull neighbours points m = .ok (r, tried)) :
    tried <+: 3 :: table ∧ tried.length ≤ m ∧
    (∀ k ∈ tried.tail, k ≤ points.length) ∧
    (∀ i, i + 1 < tried.length →
      ∃ hull, concaveHull (neighbours i) points (tried.getD i 0) = .ok (false, hull)) ∧
    (∀ hull, r = some hull → tried ≠ [] ∧
      concaveHull (neighbours (tried.length - 1)) points (tried.getD (tried.length - 1) 0) = .ok (true, hull)) ∧
    (r = none →
      (∀ i < tried.length, ∃ hull, concaveHull (neighbours i) points (tried.getD i 0) = .ok (false, hull)) ∧
      (tried.length = min m table.length ∨ points.length < (3 :: table).getD tried.length 0)) := by
  obtain ⟨h3, h⟩ := computeConcaveHull_retry h
  have hlen : neighboursValues.length = 24 := rfl
  obtain ⟨h1, h2, h3', h4, h5, h6⟩ := retry_spec _ _ _ 0 (by omega) h
  have h24 : tried.length ≤ 24 := by omega
  refine ⟨?_, by omega, ?_, ?_, ?_, ?_⟩
  · have he : tried = (3 :: table).take tried.length := by
      apply List.ext_getElem?
      intro i
      by_cases hi : i < tried.length
      · have := h2 i hi
        rw [List.getElem?_take_of_lt hi]
        rw [List.getD_eq_getElem?_getD, List.getElem?_eq_getElem hi, Option.getD_some] at this
        rw [List.getElem?_eq_getElem hi, this]
        have hall : ∀ j < 24, some (order.getD (0 + j) 0) = (3 :: table)[j]? := by decide
        exact hall i (by omega)
      · rw [List.getElem?_eq_none (by omega), List.getElem?_eq_none (by rw [List.length_take]; omega)]
    rw [he]
    exact List.take_prefix _ _
  · intro k hk
    obtain ⟨i, hi, rfl⟩ := List.mem_iff_getElem.1 hk
    rw [List.length_tail] at hi
    rw [List.getElem_tail]
    have := h2 (i + 1) (by omega)
    rw [List.getD_eq_getElem?_getD, List.getElem?_eq_getElem (by omega), Option.getD_some] at this
    rw [this, show 0 + (i + 1) = 0 + i + 1 from by omega]
    exact h3' i (by omega)
  · intro i hi
    obtain ⟨hull, hh⟩ := h4 i hi
    rw [h2 i (by omega)]
    rw [Nat.zero_add] at hh ⊢
    exact ⟨hull, hh⟩
  · intro hull he
    obtain ⟨hne, hh⟩ := h5 hull he
    have hpos : 0 < tried.length := List.length_pos_iff.2 hne
    refine ⟨hne, ?_⟩
    rw [h2 (tried.length - 1) (by omega), Nat.zero_add]
    rw [Nat.zero_add] at hh
    exact hh
  · intro he
    obtain ⟨ha, hb⟩ := h6 he
    constructor
    · intro i hi
      obtain ⟨hull, hh⟩ := ha i hi
      rw [h2 i hi]
      rw [Nat.zero_add] at hh ⊢
      exact ⟨hull, hh⟩
    · rcases hb with hb | hb
      · exact Or.inl (by rw [hb]; rfl)
      · right
        rw [Nat.zero_add] at hb
        by_cases h0 : tried.length = 0
        · rw [h0, show neighboursValues.getD (0 - 1) 0 = 3 from rfl] at hb; omega
        · rw [show tried.length = tried.length - 1 + 1 from by omega, List.getD_cons_succ]
          exact hb

/-- C57: every search ends, whatever the neighbour search returns. -/
theorem C57_ends (neighbours : ℕ → Neighbours) (points : List Point) (m : ℕ) (h : 3 ≤ points.length) :
    ∃ r, computeConcaveHull neighbours points m = .ok r := by
  unfold computeConcaveHull
  rw [if_neg (by omega)]
  exact retry_total _ _ (fun i k => concaveHull_total _ _ _) _ _ _

/-- Nine points of a grid. -/
def grid : List (ℚ × ℚ) := [(0, 0), (1, 0), (2, 0), (0, 1), (1, 1), (2, 1), (0, 2), (1, 2), (2, 2)]

example : computeConcaveHull (fun _ => exactNeighbours) (numbered (grid ++ [(-100, 1)])) 8 =
    .ok (some [⟨2, 0, 2⟩, ⟨2, 2, 8⟩, ⟨0, 2, 6⟩, ⟨-100, 1, 9⟩, ⟨0, 0, 0⟩, ⟨2, 0, 10⟩], [3, 3, 5, 7]) := by
  decide +kernel

/-- C57 is false: after a failure the same size is tried again. -/
theorem C57_larger_size_false :
    ¬ ∀ (points : List Point) (r : Option (List Point)) (tried : List ℕ),
      computeConcaveHull (fun _ => exactNeighbours) points 8 = .ok (r, tried) → tried.Pairwise (· < ·) := by
  intro h
  have := h (numbered (grid ++ [(-100, 1)])) _ _
    (show _ = Outcome.ok (some [⟨2, 0, 2⟩, ⟨2, 2, 8⟩, ⟨0, 2, 6⟩, ⟨-100, 1, 9⟩, ⟨0, 0, 0⟩, ⟨2, 0, 10⟩], [3, 3, 5, 7]) by
      decide +kernel)
  revert this
  decide

/-- C57 is false: the last size of the table is never tried, even with no limit on the attempts. -/
theorem C57_last_size_false (neighbours : ℕ → Neighbours) (points : List Point) (m : ℕ)
    (r : Option (List Point)) (tried : List ℕ)
    (h : computeConcaveHull neighbours points m = .ok (r, tried)) : 97 ∉ tried := by
  obtain ⟨h3, h⟩ := computeConcaveHull_retry h
  have hlen : neighboursValues.length = 24 := rfl
  obtain ⟨h1, h2, -⟩ := retry_spec _ _ _ 0 (by omega) h
  intro hmem
  obtain ⟨i, hi, he⟩ := List.mem_iff_getElem.1 hmem
  have := h2 i hi
  rw [List.getD_eq_getElem?_getD, List.getElem?_eq_getElem hi, Option.getD_some, he] at this
  have hall : ∀ j < 24, 97 ≠ order.getD (0 + j) 0 := by decide
  exact hall i (by omega) this

/-- What the polygon of a set of points is. -/
theorem polygonOf_some {neighbours : ℕ → Neighbours} {points verts : List (ℚ × ℚ)}
    (h : polygonOf neighbours points = .ok verts) :
    verts = [] ∨ (3 ≤ points.length ∧ ∃ hull i k,
      concaveHull (neighbours i) (numbered points) k = .ok (true, hull) ∧
      verts = hull.map fun p => (p.x, p.y)) := by
  unfold polygonOf at h
  split_ifs at h with h3
  · cases h; exact Or.inl rfl
  · obtain ⟨⟨r, tried⟩, hr, h⟩ := Outcome.bind_eq_ok h
    cases r with
    | none => simp only [Outcome.ok.injEq] at h; exact Or.inl h.symm
    | some hull =>
      simp only [Outcome.ok.injEq] at h
      obtain ⟨-, -, -, -, hs, -⟩ := C57_sizes_partial _ _ _ _ _ hr
      obtain ⟨-, hs⟩ := hs hull rfl
      exact Or.inr ⟨by omega, hull, _, _, hs, h.symm⟩

theorem concaveHull_three {neighbours : Neighbours} {points : List Point} {k : ℕ} {hull : List Point}
    (h : concaveHull neighbours points k = .ok (true, hull)) (h3 : points.length = 3) : hull = points := by
  unfold concaveHull at h
  rw [if_neg (by omega), if_pos h3] at h
  cases h; rfl

/-- C97: fitting a boundary always ends, without failure. -/
theorem C97_ends (neighbours : ℕ → Neighbours) (points : List (ℚ × ℚ)) :
    ∃ verts, polygonOf neighbours points = .ok verts := by
  unfold polygonOf
  split_ifs with h3
  · exact ⟨_, rfl⟩
  · obtain ⟨r, hr⟩ := C57_ends neighbours (numbered points) 8 (by rw [numbered_length]; omega)
    rw [hr]
    exact ⟨_, rfl⟩

/-- C97: the vertices of the boundary are points of the input; no point is used twice, except that the
boundary may end where it started. -/
theorem C97_vertices (neighbours : ℕ → Neighbours) (hn : ∀ i, FromLeft (neighbours i))
    (points verts : List (ℚ × ℚ)) (h : polygonOf neighbours points = .ok verts) :
    ∃ position : ℕ → ℕ,
      (∀ i < verts.length, ∃ p, verts[i]? = some p ∧ points[position i]? = some p) ∧
      (∀ i j, i < j → j < verts.length → position i = position j → i = 0 ∧ j + 1 = verts.length) := by
  rcases polygonOf_some h with rfl | ⟨h3, hull, i, k, hs, rfl⟩
  · exact ⟨id, by simp, by simp⟩
  · by_cases h4 : points.length = 3
    · have he := concaveHull_three hs (by rw [numbered_length]; exact h4)
      subst he
      have hid : (numbered points).map (fun p => (p.x, p.y)) = points := by
        unfold numbered
        rw [List.map_map]
        have : ((fun p : Point => (p.x, p.y)) ∘ fun p : (ℚ × ℚ) × ℕ => (⟨p.1.1, p.1.2, p.2⟩ : Point)) =
          Prod.fst := rfl
        rw [this, List.zipIdx_map_fst]
      rw [hid]
      refine ⟨id, ?_, ?_⟩
      · intro i hi
        exact ⟨points[i], List.getElem?_eq_getElem hi, List.getElem?_eq_getElem hi⟩
      · intro i j hij _ he
        have : i = j := he
        omega
    · obtain ⟨first, hfirst, hc, -, -, hf⟩ :=
        concaveHull_some hs (by rw [numbered_length]; omega)
      have hidlt : ∀ p ∈ numbered points, p.id < (numbered points).length := by
        intro p hp
        have := numbered_mem hp
        rw [numbered_length]
        exact (List.getElem?_eq_some_iff.1 this).1
      obtain ⟨hnd, hmem⟩ := hf (hn i) hidlt (by rw [numbered_id]; exact List.nodup_range)
      obtain ⟨rest, hrest⟩ := hc.head
      set last : Point := { first with id := (numbered points).length } with hlast
      have hhead : hull.getD 0 default = first := by rw [hrest]; rfl
      have hlen0 : 0 < hull.length := by rw [hrest]; simp
      -- the identifier of a vertex determines its place
      have hinj : ∀ a b, a < hull.length → b < hull.length →
          (hull.getD a default).id = (hull.getD b default).id → a = b := by
        intro a b ha hb he
        rw [List.getD_eq_getElem?_getD, List.getD_eq_getElem?_getD, List.getElem?_eq_getElem ha,
          List.getElem?_eq_getElem hb, Option.getD_some, Option.getD_some] at he
        have := (List.nodup_iff_injective_get.1 hnd) (a₁ := ⟨a, by simpa using ha⟩) (a₂ := ⟨b, by simpa using hb⟩)
          (by simpa using he)
        simpa using this
      have hin : ∀ a < hull.length, hull.getD a default ∈ hull := by
        intro a ha
        rw [List.getD_eq_getElem?_getD, List.getElem?_eq_getElem ha, Option.getD_some]
        exact List.getElem_mem ha
      refine ⟨fun a => if hull.getD a default = last then first.id else (hull.getD a default).id, ?_, ?_⟩
      · intro a ha
        rw [List.length_map] at ha
        refine ⟨((hull.getD a default).x, (hull.getD a default).y), ?_, ?_⟩
        · rw [List.getElem?_map, List.getElem?_eq_getElem ha, List.getD_eq_getElem?_getD,
            List.getElem?_eq_getElem ha]
          rfl
        · dsimp only
          split_ifs with hl
          · rw [hl]; exact numbered_mem hfirst
          · rcases hmem _ (hin a ha) with hp | hp
            · exact numbered_mem hp
            · exact absurd hp hl
      · intro a b hab hb he
        rw [List.length_map] at hb ⊢
        dsimp only at he
        have hfl : first.id < (numbered points).length := hidlt _ hfirst
        -- the vertex in place `b` has the coordinates of the first point and `a` is the first place
        have key : a = 0 ∧ pointsEqual (hull.getD b default) first = true := by
          have hself : ∀ p : Point, p.x = first.x → p.y = first.y → pointsEqual p first = true := by
            intro p hx hy
            unfold pointsEqual equal
            rw [hx, hy, sub_self, sub_self, abs_zero]
            simp only [eps_pos.le, decide_true, Bool.and_true]
          by_cases ha' : hull.getD a default = last
          · rw [if_pos ha'] at he
            by_cases hb' : hull.getD b default = last
            · have := hinj a b (by omega) hb (by rw [ha', hb'])
              omega
            · rw [if_neg hb', ← hhead] at he
              have := hinj 0 b hlen0 hb he
              omega
          · rw [if_neg ha'] at he
            by_cases hb' : hull.getD b default = last
            · rw [if_pos hb', ← hhead] at he
              have := hinj a 0 (by omega) hlen0 he
              exact ⟨this, by rw [hb']; exact hself _ rfl rfl⟩
            · rw [if_neg hb'] at he
              have := hinj a b (by omega) hb he
              omega
        refine ⟨key.1, ?_⟩
        by_contra hne
        have := hc.inner b (by omega) (by omega)
        rw [key.2] at this
        exact absurd this (by simp)

/-- A search that returns only points left: the exact one. -/
theorem insertBy_mem {lt : Point → Point → Bool} {p c : Point} : ∀ {l : List Point},
    c ∈ insertBy lt p l → c = p ∨ c ∈ l
  | [], h => Or.inl (by simpa [insertBy] using h)
  | q :: qs, h => by
    unfold insertBy at h
    split_ifs at h
    · exact List.mem_cons.1 h
    · rcases List.mem_cons.1 h with h | h
      · exact Or.inr (by rw [h]; simp)
      · rcases insertBy_mem h with h | h
        · exact Or.inl h
        · exact Or.inr (List.mem_cons_of_mem _ h)

theorem sortBy_mem {lt : Point → Point → Bool} {c : Point} : ∀ {l : List Point}, c ∈ sortBy lt l → c ∈ l
  | [], h => by simp [sortBy] at h
  | q :: qs, h => by
    rcases insertBy_mem (l := sortBy lt qs) h with h | h
    · rw [h]; simp
    · exact List.mem_cons_of_mem _ (sortBy_mem h)

theorem exactNeighbours_fromLeft : FromLeft exactNeighbours := by
  intro left hull k c hc
  exact sortBy_mem (List.mem_of_mem_take (sortBy_mem hc))

example : polygonOf (fun _ => exactNeighbours) grid =
    .ok [(2, 0), (2, 1), (2, 2), (0, 2), (0, 1), (0, 0), (2, 0)] := by decide +kernel

/-- C98 (missing: overlapping parallel edges are accepted, see below).  Two edges of the boundary that are not neighbours do not meet,
unless they are parallel up to the tolerance of the code: whatever the neighbour search returns. -/
theorem C98_edges_apart_partial (neighbours : ℕ → Neighbours) (points verts : List (ℚ × ℚ))
    (h : polygonOf neighbours points = .ok verts) (a b : ℕ) (hab : a + 2 ≤ b) (a1 a2 b1 b2 : ℚ × ℚ)
    (ha1 : verts[a]? = some a1) (ha2 : verts[a + 1]? = some a2)
    (hb1 : verts[b]? = some b1) (hb2 : verts[b + 1]? = some b2)
    (hopen : a = 0 → b + 2 < verts.length)
    (x y : ℚ) (hA : OnSegment ⟨a1.1, a1.2, 0⟩ ⟨a2.1, a2.2, 0⟩ x y)
    (hB : OnSegment ⟨b1.1, b1.2, 0⟩ ⟨b2.1, b2.2, 0⟩ x y) :
    |(b2.1 - b1.1) * (a2.2 - a1.2) - (b2.2 - b1.2) * (a2.1 - a1.1)| ≤ eps := by
  rcases polygonOf_some h with rfl | ⟨h3, hull, i, k, hs, rfl⟩
  · simp at ha1
  · rw [List.length_map] at hopen
    rw [List.getElem?_map, Option.map_eq_some_iff] at ha1 ha2 hb1 hb2
    obtain ⟨pa1, ha1, rfl⟩ := ha1
    obtain ⟨pa2, ha2, rfl⟩ := ha2
    obtain ⟨pb1, hb1, rfl⟩ := hb1
    obtain ⟨pb2, hb2, rfl⟩ := hb2
    have hblt := (List.getElem?_eq_some_iff.1 hb2).1
    by_cases h4 : points.length = 3
    · have he := concaveHull_three hs (by rw [numbered_length]; exact h4)
      subst he
      rw [numbered_length] at hblt
      omega
    · obtain ⟨first, -, hc, -⟩ := concaveHull_some hs (by rw [numbered_length]; omega)
      have hcross := hc.simple a b hab hblt (by
        by_cases h0 : a = 0
        · exact Or.inr (hc.inner (b + 1) (by omega) (hopen h0))
        · exact Or.inl (by omega))
      rw [List.getD_eq_getElem?_getD, List.getD_eq_getElem?_getD, List.getD_eq_getElem?_getD,
        List.getD_eq_getElem?_getD, ha1, ha2, hb1, hb2] at hcross
      simp only [Option.getD_some] at hcross
      by_contra hgt
      rw [not_le] at hgt
      have := intersects_of_common (a1 := pb1) (a2 := pb2) (b1 := pa1) (b2 := pa2) (x := x) (y := y) hB hA hgt
      rw [hcross] at this
      exact absurd this (by simp)

/-- C98, the last edge: when the boundary does not end near its start, its last edge does not meet its first one
either. -/
theorem C98_last_edge_partial (neighbours : ℕ → Neighbours) (points verts : List (ℚ × ℚ))
    (h : polygonOf neighbours points = .ok verts) (b : ℕ) (hab : 2 ≤ b) (hlen : b + 2 = verts.length)
    (a1 a2 b1 b2 : ℚ × ℚ) (ha1 : verts[0]? = some a1) (ha2 : verts[1]? = some a2)
    (hb1 : verts[b]? = some b1) (hb2 : verts[b + 1]? = some b2)
    (hopen : eps < |b2.1 - a1.1| ∨ eps < |b2.2 - a1.2|)
    (x y : ℚ) (hA : OnSegment ⟨a1.1, a1.2, 0⟩ ⟨a2.1, a2.2, 0⟩ x y)
    (hB : OnSegment ⟨b1.1, b1.2, 0⟩ ⟨b2.1, b2.2, 0⟩ x y) :
    |(b2.1 - b1.1) * (a2.2 - a1.2) - (b2.2 - b1.2) * (a2.1 - a1.1)| ≤ eps := by
  rcases polygonOf_some h with rfl | ⟨h3, hull, i, k, hs, rfl⟩
  · simp at ha1
  · rw [List.getElem?_map, Option.map_eq_some_iff] at ha1 ha2 hb1 hb2
    obtain ⟨pa1, ha1, rfl⟩ := ha1
    obtain ⟨pa2, ha2, rfl⟩ := ha2
    obtain ⟨pb1, hb1, rfl⟩ := hb1
    obtain ⟨pb2, hb2, rfl⟩ := hb2
    have hblt := (List.getElem?_eq_some_iff.1 hb2).1
    by_cases h4 : points.length = 3
    · have he := concaveHull_three hs (by rw [numbered_length]; exact h4)
      subst he
      rw [numbered_length] at hblt
      omega
    · obtain ⟨first, -, hc, -⟩ := concaveHull_some hs (by rw [numbered_length]; omega)
      obtain ⟨rest, hrest⟩ := hc.head
      have hfirst : pa1 = first := by
        rw [hrest] at ha1
        simpa using ha1.symm
      have hcross := hc.simple 0 b (by omega) hblt (by
        right
        rw [List.getD_eq_getElem?_getD, hb2, Option.getD_some, ← hfirst]
        unfold pointsEqual equal
        rcases hopen with ho | ho
        · rw [decide_eq_false (not_le.2 ho), Bool.false_and]
        · rw [decide_eq_false (not_le.2 ho), Bool.and_false])
      rw [List.getD_eq_getElem?_getD, List.getD_eq_getElem?_getD, List.getD_eq_getElem?_getD,
        List.getD_eq_getElem?_getD, ha1, ha2, hb1, hb2] at hcross
      simp only [Option.getD_some] at hcross
      by_contra hgt
      rw [not_le] at hgt
      have := intersects_of_common (a1 := pb1) (a2 := pb2) (b1 := pa1) (b2 := pa2) (x := x) (y := y) hB hA hgt
      rw [hcross] at this
      exact absurd this (by simp)

/-- Five points, four of them on a line. -/
def almostLine : List (ℚ × ℚ) := [(0, 1), (4, 0), (0, 4), (0, 3), (0, 0)]

theorem almostLine_polygon : polygonOf (fun _ => exactNeighbours) almostLine =
    .ok [(4, 0), (0, 4), (0, 0), (0, 3), (0, 1)] := by decide +kernel

/-- C98 is false: the boundary returned for five points, with the exact neighbour search, goes twice along the
same segment, so two edges that are not neighbours meet. -/
theorem C98_edges_apart_false :
    ¬ ∀ (points verts : List (ℚ × ℚ)), polygonOf (fun _ => exactNeighbours) points = .ok verts →
      ∀ a b, a + 2 ≤ b → b + 2 < verts.length ∨ 0 < a → ∀ a1 a2 b1 b2 : ℚ × ℚ,
        verts[a]? = some a1 → verts[a + 1]? = some a2 → verts[b]? = some b1 → verts[b + 1]? = some b2 →
        ¬ ∃ x y, OnSegment ⟨a1.1, a1.2, 0⟩ ⟨a2.1, a2.2, 0⟩ x y ∧
          OnSegment ⟨b1.1, b1.2, 0⟩ ⟨b2.1, b2.2, 0⟩ x y := by
  intro h
  refine h almostLine _ almostLine_polygon 1 3 (by omega) (Or.inr (by omega)) (0, 4) (0, 0) (0, 3) (0, 1)
    rfl rfl rfl rfl ⟨0, 2, ⟨1 / 2, ?_⟩, ⟨1 / 2, ?_⟩⟩ <;> norm_num

theorem countCrossings_eq (p : Point) : ∀ l : List Point, countCrossings p l = rayHits p l
  | [] => rfl
  | [v] => rfl
  | v0 :: v1 :: rest => by
    have ih := countCrossings_eq p (v1 :: rest)
    unfold countCrossings
    rw [ih]
    have hiff : crossesRight p v0 v1 = true ↔ RayMeets p (v0, v1) := by
      unfold crossesRight RayMeets isZero lessThan lessThanOrEqual
      simp only [Bool.and_eq_true, Bool.or_eq_true, Bool.not_eq_true', decide_eq_true_eq,
        decide_eq_false_iff_not, not_le, and_assoc]
    have hcons : edges (v0 :: v1 :: rest) = (v0, v1) :: edges (v1 :: rest) := rfl
    unfold rayHits
    rw [hcons, List.filter_cons]
    by_cases hc : RayMeets p (v0, v1)
    · rw [if_pos (hiff.2 hc), if_pos (decide_eq_true hc), List.length_cons]; omega
    · rw [if_neg (fun e => hc (hiff.1 e)), if_neg (by simpa using hc)]; omega

/-- C99 (missing: a point whose half line meets no edge is accepted although it is outside, see below).  When a
boundary of at least four points is returned, every point of the input is a vertex, or the half line from it
to the right meets an odd number of edges or none. -/
theorem C99_enclosed_partial (neighbours : ℕ → Neighbours) (hn : ∀ i, FromLeft (neighbours i))
    (points verts : List (ℚ × ℚ)) (h : polygonOf neighbours points = .ok verts) (hne : verts ≠ [])
    (p : ℚ × ℚ) (hp : p ∈ points) :
    p ∈ verts ∨ rayHits ⟨p.1, p.2, 0⟩ (verts.map fun v => ⟨v.1, v.2, 0⟩) = 0 ∨
      Odd (rayHits ⟨p.1, p.2, 0⟩ (verts.map fun v => ⟨v.1, v.2, 0⟩)) := by
  rcases polygonOf_some h with rfl | ⟨h3, hull, i, k, hs, rfl⟩
  · exact absurd rfl hne
  · obtain ⟨n, hn', hpn⟩ := List.mem_iff_getElem.1 hp
    have hmem := numbered_of (i := n) (p := p) (by rw [List.getElem?_eq_getElem hn', hpn])
    by_cases h4 : points.length = 3
    · have he := concaveHull_three hs (by rw [numbered_length]; exact h4)
      subst he
      exact Or.inl (List.mem_map.2 ⟨_, hmem, rfl⟩)
    · obtain ⟨first, hfirst, hc, -, hall, hf⟩ := concaveHull_some hs (by rw [numbered_length]; omega)
      have hidlt : ∀ p ∈ numbered points, p.id < (numbered points).length := by
        intro p hp
        have := numbered_mem hp
        rw [numbered_length]
        exact (List.getElem?_eq_some_iff.1 this).1
      obtain ⟨-, hfrom⟩ := hf (hn i) hidlt (by rw [numbered_id]; exact List.nodup_range)
      rcases hall _ hmem with ⟨v, hv, hid⟩ | hin
      · left
        refine List.mem_map.2 ⟨v, hv, ?_⟩
        rcases hfrom v hv with hvp | rfl
        · have h1 := numbered_mem hvp
          rw [hid] at h1
          have h2 := numbered_mem hmem
          rw [h1] at h2
          exact Option.some.inj h2
        · have := hidlt _ hmem
          rw [← hid] at this
          exact absurd this (lt_irrefl _)
      · right
        have hmap : ∀ (l : List Point), rayHits ⟨p.1, p.2, 0⟩
            ((l.map fun q => (q.x, q.y)).map fun v => (⟨v.1, v.2, 0⟩ : Point)) =
            countCrossings ⟨p.1, p.2, n⟩ l := by
          intro l
          rw [← countCrossings_eq, List.map_map]
          have : ∀ l : List Point, countCrossings ⟨p.1, p.2, 0⟩
              (l.map ((fun v : ℚ × ℚ => (⟨v.1, v.2, 0⟩ : Point)) ∘ fun q : Point => (q.x, q.y))) =
              countCrossings ⟨p.1, p.2, n⟩ l := by
            intro l
            induction l with
            | nil => rfl
            | cons a l ih =>
              cases l with
              | nil => rfl
              | cons b l => exact congrArg₂ (· + ·) rfl ih
          exact this l
        rw [hmap]
        unfold pointInPolygon at hin
        split_ifs at hin with h2
        dsimp only at hin
        split_ifs at hin with h0 h1
        · exact Or.inl h0
        · exact Or.inr (Nat.odd_iff.2 (by omega))

/-- C99 is false: with the exact neighbour search, the boundary of a grid and a point far on its right leaves that
point outside, to the right of every vertex. -/
theorem C99_enclosed_false :
    ∃ verts : List (ℚ × ℚ), polygonOf (fun _ => exactNeighbours) (grid ++ [(100, 1)]) = .ok verts ∧
      verts ≠ [] ∧ ∀ v ∈ verts, v.1 < 100 :=
  ⟨[(2, 0), (2, 1), (2, 2), (0, 2), (0, 1), (0, 0), (2, 0)], by decide +kernel, by decide, by decide +kernel⟩

/-- C100 (missing: the boundary of four points is left open, see below).  A boundary with fewer vertices than there are
points ends where it started, up to the tolerance of the code. -/
theorem C100_closed_partial (neighbours : ℕ → Neighbours) (points verts : List (ℚ × ℚ))
    (h : polygonOf neighbours points = .ok verts) (hlen : verts.length ≠ points.length) (a b : ℚ × ℚ)
    (ha : verts[0]? = some a) (hb : verts[verts.length - 1]? = some b) :
    1 < verts.length ∧ |b.1 - a.1| ≤ eps ∧ |b.2 - a.2| ≤ eps := by
  rcases polygonOf_some h with rfl | ⟨h3, hull, i, k, hs, rfl⟩
  · simp at ha
  · rw [List.length_map] at hlen hb ⊢
    rw [List.getElem?_map, Option.map_eq_some_iff] at ha hb
    obtain ⟨pa, ha, rfl⟩ := ha
    obtain ⟨pb, hb, rfl⟩ := hb
    by_cases h4 : points.length = 3
    · have he := concaveHull_three hs (by rw [numbered_length]; exact h4)
      subst he
      exact absurd (numbered_length points) hlen
    · obtain ⟨first, -, hc, hend, -⟩ := concaveHull_some hs (by rw [numbered_length]; omega)
      obtain ⟨rest, hrest⟩ := hc.head
      have hfirst : pa = first := by
        rw [hrest] at ha
        simpa using ha.symm
      rw [numbered_length] at hend
      rcases hend with hend | ⟨heq, h1⟩
      · exact absurd hend hlen
      · rw [List.getD_eq_getElem?_getD, hb, Option.getD_some, ← hfirst] at heq
        unfold pointsEqual equal at heq
        simp only [Bool.and_eq_true, decide_eq_true_eq] at heq
        have : hull.length ≠ 0 := by rw [hrest]; simp
        exact ⟨by omega, heq⟩

/-- C100 is false: the boundary of the corners of a square, with the exact neighbour search, does not end where it
started. -/
theorem C100_closed_false :
    ∃ verts : List (ℚ × ℚ), polygonOf (fun _ => exactNeighbours) [(0, 0), (2, 0), (2, 2), (0, 2)] = .ok verts ∧
      verts ≠ [] ∧ verts.head? ≠ verts.getLast? :=
  ⟨[(2, 0), (2, 2), (0, 2), (0, 0)], by decide +kernel, by decide, by decide +kernel⟩

end RgbdSlam.ConcaveHull

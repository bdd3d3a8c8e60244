import Verif.Lemmas.MapWriter
/-
Properties of the exported files (C27, C28).
-/
namespace RgbdSlam.Writer

variable {R : Type} {fmt : R → List Char}

/-- Numbers of the examples are printed as decimal naturals. -/
def demoFmt (n : Nat) : List Char := number n

theorem demo_oneWord : OneWord demoFmt := number_noblank

/-- Three vertices and the closed triangle they bound. -/
def va : Vec Nat := ⟨1, 2, 3⟩
def vb : Vec Nat := ⟨4, 5, 6⟩
def vc : Vec Nat := ⟨70, 8, 9⟩
def triangle : List (Vec Nat) := [va, vb, vc, va]

/-- C27: for every sequence of calls, a viewer of the OBJ file shows for the line and polygon calls, in
order, exactly the vertices that were given (a polygon backwards and without the repeated first
vertex), whatever was written before and after.  Missing: points, see
`C27_point_shows_next_vertex_false`. -/
theorem C27_lines_and_polygons_shown_partial (h : OneWord fmt) (calls : List (Call R))
    (hs : ∀ ps nrm, Call.polygon ps nrm ∈ calls → ps.length ≤ 2 ^ 32) :
    (objShown (objFile fmt calls)).filter (fun e => decide (e.1 ≠ 'p')) =
      ((calls.filterMap shape).filter (fun e => decide (e.1 ≠ 'p'))).map
        (fun e => (e.1, e.2.map fun p => some (words fmt p))) := by
  have := shown_all fmt calls [] [] hs
  rw [objShown, List.filter_map, objElements_file h]
  simp only [List.nil_append, List.append_nil, List.length_nil, Nat.zero_add] at this
  rw [← this]
  have hv : objVertex (objFile fmt calls) = fun k => if k = 0 then none else
      ((calls.flatMap callVertices).map (words fmt))[k - 1]? := by
    funext k
    rw [objVertex, objVertices_file h]
  rw [hv]
  rfl

example : (∀ ps nrm, Call.polygon ps nrm ∈ [Call.line [va, vb], .point vc, .polygon triangle va] →
      ps.length ≤ 2 ^ 32) ∧
    (objShown (objFile demoFmt [.line [va, vb], .point vc, .polygon triangle va])).filter
      (fun e => decide (e.1 ≠ 'p')) =
    [('l', [some (words demoFmt va), some (words demoFmt vb)]),
     ('f', [some (words demoFmt va), some (words demoFmt vc), some (words demoFmt vb)])] := by
  refine ⟨?_, ?_⟩
  · intro ps nrm h
    simp at h
    rw [h.1]
    decide
  · decide +kernel

/-- C27: the boundary that boost gives is closed, so a polygon is shown with all its vertices and no
other, and with each boundary edge once. -/
theorem C27_polygon_complete (ps : List (Vec R)) (nrm : Vec R) (hc : ClosedRing ps) (h2 : 2 ≤ ps.length) :
    ∃ vs, shape (.polygon ps nrm) = some ('f', vs) ∧ (∀ v, v ∈ vs ↔ v ∈ ps) ∧
      (∃ first, vs.head? = some first ∧ vs ++ [first] = ps.reverse) := by
  cases ps with
  | nil => simp at h2
  | cons q qs =>
    have hne : qs ≠ [] := by intro h; subst h; simp at h2
    have hl : qs.getLast? = some q := by
      have := hc.1
      rw [List.getLast?_cons_of_ne_nil hne] at this
      simpa using this.symm
    have hmem : q ∈ qs := List.mem_of_getLast? hl
    refine ⟨qs.reverse, rfl, ?_, q, ?_, ?_⟩
    · intro v
      constructor
      · intro hv; simp at hv; simp [hv]
      · intro hv
        rcases List.mem_cons.mp hv with rfl | hv
        · simpa using hmem
        · simpa using hv
    · rw [List.head?_reverse, hl]
    · simp

example : ClosedRing triangle ∧ 2 ≤ triangle.length := by
  refine ⟨⟨rfl, ?_⟩, ?_⟩ <;> decide

/-- C27: every vertex number is at least 1, and at most the number of vertices of the file; only the
elements of points may exceed it by one. -/
theorem C27_numbers_in_range_partial (h : OneWord fmt) (calls : List (Call R)) :
    ∀ e ∈ objElements (objFile fmt calls), ∀ n ∈ e.2,
      1 ≤ n ∧ n ≤ (objVertices (objFile fmt calls)).length + (if e.1 = 'p' then 1 else 0) := by
  intro e he n hn
  rw [objElements_file h] at he
  have := numbers_all calls 1 e he n hn
  rw [objVertices_file h, List.length_map]
  omega

example : ('f', [4, 5, 6]) ∈
    objElements (objFile demoFmt [.line [va, vb], .point vc, .polygon triangle va]) := by
  decide +kernel

/-- C27: vertices and elements already written are never changed: later calls only append to the
file. -/
theorem C27_later_calls_append (fmt : R → List Char) (calls more : List (Call R)) :
    objFile fmt calls <+: objFile fmt (calls ++ more) := by
  rw [objFile, objFile, List.foldl_append, calls_eq fmt more]
  exact List.prefix_append _ _

/-- C27 is false for points: the vertex of a point is the one that follows those already in the file,
but the element of the point shows the vertex after it, whichever it is, and nothing when there is
none. -/
theorem C27_point_shows_next_vertex_false (h : OneWord fmt) (before after : List (Call R)) (p : Vec R) :
    let file := objFile fmt (before ++ .point p :: after)
    let own := (objVertices (objFile fmt before)).length
    (objVertices file)[own]? = some (words fmt p) ∧
      (objShown file)[(objElements (objFile fmt before)).length]? =
        some ('p', [(objVertices file)[own + 1]?]) := by
  intro file own
  have hown : own = (before.flatMap callVertices).length := by
    simp only [own, objVertices_file h, List.length_map]
  have hv : objVertices file = (before.flatMap callVertices).map (words fmt) ++
      (words fmt p :: (after.flatMap callVertices).map (words fmt)) := by
    simp [file, objVertices_file h, callVertices]
  constructor
  · rw [hv, hown, List.getElem?_append_right (by simp)]
    simp
  · rw [objShown, List.getElem?_map, objElements_file h, objElements_file h, allElements_append,
      List.getElem?_append_right (by simp), Nat.sub_self, allElements]
    simp only [callElements, List.singleton_append, List.getElem?_cons_zero, Option.map_some,
      List.map_cons, List.map_nil, objVertex]
    rw [if_neg (by omega)]
    have : 1 + (before.flatMap callVertices).length + 1 - 1 = own + 1 := by omega
    rw [this]

/-- The two points of a file with two point calls: the first is never shown, the second element shows
nothing. -/
example : objShown (objFile demoFmt [.point va, .point vb]) =
    [('p', [some (words demoFmt vb)]), ('p', [none])] := by decide +kernel

/-- C28: the XYZ file has one line per point, in order, with its three coordinates, and nothing else. -/
theorem C28_xyz_exactly_the_points_partial (h : OneWord fmt) (calls : List (Call R)) :
    fileLines (xyzFile fmt calls) = (pointsOf calls).map (words fmt) := by
  rw [xyzFile, xyz_eq]
  apply fileLines_render
  intro l hl
  obtain ⟨p, _, rfl⟩ := List.mem_map.mp hl
  exact good_words h p

example : fileLines (xyzFile demoFmt [.point va, .line [va, vb], .polygon triangle va, .point vb]) =
    [words demoFmt va, words demoFmt vb] := by decide +kernel

/-- C28: the data section of the PCD file has one line per point, in order, and nothing else. -/
theorem C28_pcd_exactly_the_points_partial (h : OneWord fmt) (calls : List (Call R)) :
    pcdData (pcdFile fmt calls) = (pointsOf calls).map (words fmt) := by
  rw [pcdData, pcd_lines h]
  have hh : headerLines = [["#", ".PCD", "v.7", "-", "Point", "Cloud", "Data", "file", "format"],
      ["VERSION", ".7"], ["FIELDS", "x", "y", "z"], ["SIZE", "4", "4", "4"], ["TYPE", "F", "F", "F"],
      ["POINTS", "0"], ["DATA", "ascii"]].map fun l => l.map String.toList := rfl
  rw [hh]
  simp

/-- C28: the PCD header announces 0 points whatever is written, so the announced count is right only for
a file without points. -/
theorem C28_pcd_count_false (h : OneWord fmt) (calls : List (Call R)) :
    pcdAnnounced (pcdFile fmt calls) = [0] ∧
      ((pcdAnnounced (pcdFile fmt calls) = [(pointsOf calls).length]) ↔ pointsOf calls = []) := by
  have h1 : pcdAnnounced (pcdFile fmt calls) = [0] := by
    rw [pcdAnnounced, pcd_lines h, List.filterMap_append]
    have h2 : ((pointsOf calls).map (words fmt)).filterMap announcedBy = [] := by
      rw [List.filterMap_eq_nil_iff]
      intro l hl
      obtain ⟨p, _, rfl⟩ := List.mem_map.mp hl
      rfl
    rw [h2]
    decide +kernel
  refine ⟨h1, ?_⟩
  rw [h1]
  constructor
  · intro h; simp at h; exact List.length_eq_zero_iff.mp h.symm
  · intro h; simp [h]

example : pcdData (pcdFile demoFmt [.point va, .line [va, vb], .point vb]) =
      [words demoFmt va, words demoFmt vb] ∧
    pcdAnnounced (pcdFile demoFmt [.point va, .line [va, vb], .point vb]) = [0] := by decide +kernel

end RgbdSlam.Writer

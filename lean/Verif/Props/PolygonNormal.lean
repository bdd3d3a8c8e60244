import Verif.Props.PolygonOps
import Verif.Props.Geometry
/-
More about C108: the calls that take the normal of the next plane instead of its axes.
-/
namespace RgbdSlam.PolygonOps

open RgbdSlam Geometry Geometry.Spec Spec Matrix

/-- The polygon lies in a plane of this normal, through this center. -/
structure InPlane (P : Poly) (normal center : V3) : Prop where
  axes : Orthonormal P.xAxis P.yAxis
  normal : P.xAxis ⨯₃ P.yAxis = normal
  center : P.center = center

/-- The center and the axes of the polygon already are, up to the precision of the comparison, those of the plane. -/
def AlreadyIn (P : Poly) (normal center : V3) : Prop :=
  ∃ x y, Orthonormal x y ∧ x ⨯₃ y = normal ∧ isApprox P.center center = true ∧ isApprox P.xAxis x = true ∧
    isApprox P.yAxis y = true

private theorem unit_passes {n : V3} (hn : UnitVec n) : doubleEqual (Geometry.norm n) 1 = true := by
  rw [norm_of_unit ((unitVec_iff n).1 hn)]
  exact doubleEqual_self _ doubleEps_nonneg

private theorem made_in {b : List V2} {x y center n : V3} {P' : Poly} (hxy : Orthonormal x y)
    (hc : x ⨯₃ y = n) (h : Poly.make b x y center = .ok P') : InPlane P' n center := by
  rw [make_ok hxy b center] at h
  obtain rfl := Outcome.ok.inj h
  exact ⟨hxy, hc, rfl⟩

/-- C108 (partial: polygons without hole): a polygon projected on the plane of a unit normal through a
center, in which it is not already, is in that plane, and its area is multiplied by the cosine of the angle
between that normal and its own. -/
theorem C108_projected_on_normal_partial {P : Poly} (hr : Regular P) (hP : Orthonormal P.xAxis P.yAxis)
    {n : V3} (hn : UnitVec n) (center : V3) :
    ∃ P', P.projectNormal n center = .ok P' ∧
      (P' = P ∧ AlreadyIn P n center ∨
        InPlane P' n center ∧ Regular P' ∧
          P'.cached = |(P.xAxis ⨯₃ P.yAxis) ⬝ᵥ n| * areaOf P.shape) := by
  obtain ⟨x, y, hb, hxy, -, -, hc⟩ := C52_basis hn
  unfold Poly.projectNormal
  rw [unit_passes hn, hb, Outcome.bind_ok]
  simp only [Bool.not_true, Bool.false_eq_true, if_false]
  by_cases hne : (isApprox P.center center && isApprox P.xAxis x && isApprox P.yAxis y) = true
  · refine ⟨P, ?_, Or.inl ⟨rfl, ?_⟩⟩
    · unfold Poly.project
      rw [unit_passes hxy.unitX, hne]
      have : x ⬝ᵥ y = 0 := hxy.right
      rw [this]
      norm_num
    · simp only [Bool.and_eq_true] at hne
      exact ⟨x, y, hxy, hc, hne.1.1, hne.1.2, hne.2⟩
  · rw [Bool.not_eq_true] at hne
    obtain ⟨P', h1, h2, h3⟩ := C108_projected_area_partial hr hP hxy hne
    refine ⟨P', h1, Or.inr ⟨?_, h2, ?_⟩⟩
    · have h1' := h1
      rw [place_project hP hxy hne] at h1'
      exact made_in hxy hc h1'
    · rw [h3, ← hc]
      congr 2
      simp only [cosine, cross_apply, dotProduct, Fin.sum_univ_three]
      simp
      try ring

/-- C108 (partial: polygons without hole): a polygon moved to the plane of a unit normal through a center, in
which it is not already, is in that plane and keeps its area. -/
theorem C108_moved_to_normal_partial {P : Poly} (hr : Regular P) (hP : Orthonormal P.xAxis P.yAxis)
    {n : V3} (hn : UnitVec n) (center : V3) :
    ∃ P', P.transformNormal n center = .ok P' ∧
      (P' = P ∧ AlreadyIn P n center ∨
        InPlane P' n center ∧ Regular P' ∧ P'.cached = areaOf P.shape) := by
  obtain ⟨x, y, hb, hxy, -, -, hc⟩ := C52_basis hn
  unfold Poly.transformNormal
  rw [unit_passes hn, hb, Outcome.bind_ok]
  simp only [Bool.not_true, Bool.false_eq_true, if_false]
  by_cases hne : (isApprox P.center center && isApprox P.xAxis x && isApprox P.yAxis y) = true
  · refine ⟨P, ?_, Or.inl ⟨rfl, ?_⟩⟩
    · rw [hne, if_pos rfl]
    · simp only [Bool.and_eq_true] at hne
      exact ⟨x, y, hxy, hc, hne.1.1, hne.1.2, hne.2⟩
  · rw [Bool.not_eq_true] at hne
    obtain ⟨P', h1, h2, h3⟩ := C108_transform_partial hr hP hxy hne
    refine ⟨P', ?_, Or.inr ⟨?_, h2, h3⟩⟩
    · rw [hne]; exact h1
    · obtain ⟨R, Q, -, -, -, hQ, -⟩ := C75_offset_partial (P := P.place) hP hxy hne
      rw [transform_place P x y center hne, hQ, Outcome.bind_ok] at h1
      exact made_in hxy hc h1

/-- C108: a normal whose length is not one is refused by both calls. -/
theorem C108_normal_refused (P : Poly) {n : V3} (hn : doubleEqual (Geometry.norm n) 1 = false) (center : V3) :
    P.projectNormal n center = .throws ∧ P.transformNormal n center = .throws := by
  unfold Poly.projectNormal Poly.transformNormal
  simp [hn]

/-- The polygon of C108_hole_lost_false without its hole, a plane that is not parallel to it, and a normal of
length two. -/
example : Regular { holed with shape := ⟨holed.shape.outer, []⟩ } ∧ Orthonormal holed.xAxis holed.yAxis ∧
    UnitVec (![2 / 3, 2 / 3, 1 / 3] : V3) ∧ isApprox holed.center ![0, 0, 1] = false ∧
    doubleEqual (Geometry.norm (![2, 0, 0] : V3)) 1 = false := by
  refine ⟨⟨rfl, ?_, ?_⟩, holed_axes, ?_, ?_, ?_⟩
  · intro _; simp [holed]
  · simp [holed, ringArea, edgeSum]; try norm_num
  · simp [UnitVec, Fin.sum_univ_three]; norm_num
  · simp [isApprox, holed]; try norm_num
  · simp [doubleEqual, Geometry.norm, doubleEps]; try norm_num

end RgbdSlam.PolygonOps

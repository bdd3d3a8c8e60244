import Verif.Props.PolygonOps
/- C179: the polygon fitted to points. -/
set_option linter.unusedSimpArgs false

namespace RgbdSlam.PolygonOps

open Geometry Matrix Spec
open Geometry.Spec (Orthonormal UnitQuat UnitVec spanPoint Orthogonal)

/-- What a simplification does. -/
theorem simplify_spec (B : Boost) (t : ℝ) (P : Poly) :
    (P.simplify B t).center = P.center ∧ (P.simplify B t).xAxis = P.xAxis ∧ (P.simplify B t).yAxis = P.yAxis ∧
      ((P.simplify B t).shape = P.shape ∨ (B.valid (P.simplify B t).shape ∧
        areaOf P.shape * (3 / 4) < (P.simplify B t).shape.area ∧ ∃ d, t ≤ d ∧ (P.simplify B t).shape = B.simplify P.shape d)) := by
  unfold Poly.simplify
  dsimp only
  split_ifs with h
  · exact ⟨rfl, rfl, rfl, Or.inr ⟨h.1, h.2, _, le_max_right _ _, rfl⟩⟩
  · exact ⟨rfl, rfl, rfl, Or.inl rfl⟩

/-- C179: a polygon can be fitted to three points or more, in the plane with a normal of length 1.  It is in this plane, around
the centre.  It is valid when the concave hull of the points in the plane is, or when the first polygon of its repair is, or
when there is no such polygon and the convex hull is valid.  A valid concave hull is kept, as it is or with corners 10
millimetres or more off removed, but then three quarters of its area are left at least.  Missing: a repair that gives an invalid polygon, for which the
convex hull is not tried (`C179_repaired_false`). -/
theorem C179_fit_partial (B : Boost) (points : List V3) (normal center : V3) (hn : normal ⬝ᵥ normal = 1)
    (h3 : 3 ≤ points.length) :
    ∃ P flat, Poly.fit B points normal center = .ok P ∧ P.center = center ∧ Orthonormal P.xAxis P.yAxis ∧
      P.xAxis ⨯₃ P.yAxis = normal ∧
      flat = points.reverse.map (fun p => ![P.xAxis ⬝ᵥ (p - center), P.yAxis ⬝ᵥ (p - center)]) ∧
      (B.valid (B.concaveHull flat) ∨ (∃ s l, B.repair (B.concaveHull flat) = s :: l ∧ B.valid s) ∨
        (B.repair (B.concaveHull flat) = [] ∧ B.valid (B.convexHull flat)) → B.valid P.shape) ∧
      (B.valid (B.concaveHull flat) → P.shape = B.concaveHull flat ∨
        areaOf (B.concaveHull flat) * (3 / 4) < P.shape.area ∧ ∃ d, 10 ≤ d ∧ P.shape = B.simplify (B.concaveHull flat) d) := by
  obtain ⟨x, y, hb, hx, hy, hxy, -, -, hc⟩ := planeBasis_spec hn
  have ho : Orthonormal x y := ⟨(unitVec_iff x).2 hx, (unitVec_iff y).2 hy, hxy⟩
  have hnorm : Geometry.norm normal = 1 := by rw [Geometry.norm, hn, Real.sqrt_one]
  set flat := points.reverse.map (fun p => ![x ⬝ᵥ (p - center), y ⬝ᵥ (p - center)]) with hflat
  have hm : mapOutcome (fun p => projectOnBasis p center x y) points.reverse = .ok flat :=
    mapOutcome_ok fun p _ => projectOnBasis_ok ho p center
  obtain ⟨s1, s2, s3, s4⟩ := simplify_spec B 10
    { shape := fitted B flat, center := center, xAxis := x, yAxis := y, cached := areaOf (fitted B flat) }
  refine ⟨Poly.simplify B 10 { shape := fitted B flat, center := center, xAxis := x, yAxis := y, cached := areaOf (fitted B flat) },
    flat, ?_, s1, by rw [s2, s3]; exact ho, by rw [s2, s3]; exact hc, by rw [s2, s3], ?_, ?_⟩
  · unfold Poly.fit
    rw [if_neg (by rw [hnorm]; norm_num [doubleEqual, doubleEps]), if_neg (by omega), hb, Outcome.bind_ok]
    dsimp only
    rw [hm, Outcome.bind_ok]
  · intro h
    have hv : B.valid (fitted B flat) := by
      unfold fitted
      by_cases hc : B.valid (B.concaveHull flat)
      · rw [if_pos hc]; exact hc
      · rw [if_neg hc]
        rcases h with h | ⟨s, l, hs, hsv⟩ | ⟨hs, hv⟩
        · exact absurd h hc
        · rw [hs]; exact hsv
        · rw [hs]; exact hv
    rcases s4 with h | h
    · rw [h]; exact hv
    · exact h.1
  · intro h
    have hf : fitted B flat = B.concaveHull flat := by unfold fitted; rw [if_pos h]
    rcases s4 with h | ⟨-, h1, h2⟩
    · exact Or.inl (h.trans hf)
    · dsimp only at h1 h2
      rw [hf] at h1 h2
      rw [hf]
      exact Or.inr ⟨h1, h2⟩

/-- A square, fitted as it is by a library whose polygons are all valid. -/
example : ∃ (B : Boost) (P : Poly), Poly.fit B [![0, 0, 5], ![2, 0, 5], ![2, 2, 5], ![0, 2, 5]] ![0, 0, 1] ![0, 0, 5] = .ok P ∧
    B.valid P.shape = true ∧ P.center = ![0, 0, 5] := by
  let B : Boost := ⟨fun _ _ => [], fun _ _ => [], fun _ _ => true, fun s _ => s, fun _ => true, fun _ => [], fun l => ⟨l, []⟩, fun l => ⟨l, []⟩⟩
  obtain ⟨P, flat, h1, h2, -⟩ := C179_fit_partial B [![0, 0, 5], ![2, 0, 5], ![2, 2, 5], ![0, 2, 5]] ![0, 0, 1] ![0, 0, 5]
    (by simp [dotProduct, Fin.sum_univ_three]) (by simp)
  exact ⟨B, P, h1, rfl, h2⟩

/-- C179 is false when the repair of the concave hull gives an invalid polygon first: the polygon is this one, although the
convex hull and the other polygons of the repair are valid. -/
theorem C179_repaired_false (bad good : Shape) (hne : bad ≠ good) (points : List V3) (normal center : V3)
    (hn : normal ⬝ᵥ normal = 1) (h3 : 3 ≤ points.length) :
    ∃ (B : Boost) (P : Poly), (∀ l, B.valid (B.convexHull l)) ∧ (∀ s, ∃ t ∈ B.repair s, B.valid t) ∧
      Poly.fit B points normal center = .ok P ∧ ¬ B.valid P.shape := by
  classical
  let B : Boost := ⟨fun _ _ => [], fun _ _ => [], fun _ _ => true, fun s _ => s, fun s => decide (s = good), fun _ => [bad, good],
    fun _ => good, fun _ => bad⟩
  obtain ⟨x, y, hb, hx, hy, hxy, -, -, hc⟩ := planeBasis_spec hn
  have hnorm : Geometry.norm normal = 1 := by rw [Geometry.norm, hn, Real.sqrt_one]
  have hm := mapOutcome_ok (l := points.reverse) fun p _ => projectOnBasis_ok (x := x) (y := y) ⟨(unitVec_iff x).2 hx, (unitVec_iff y).2 hy, hxy⟩ p center
  refine ⟨B, Poly.simplify B 10 { shape := bad, center := center, xAxis := x, yAxis := y, cached := areaOf bad },
    fun l => by simp [B], fun s => ⟨good, by simp [B], by simp [B]⟩, ?_, ?_⟩
  · unfold Poly.fit
    rw [if_neg (by rw [hnorm]; norm_num [doubleEqual, doubleEps]), if_neg (by omega), hb, Outcome.bind_ok]
    dsimp only
    rw [hm, Outcome.bind_ok]
    simp [fitted, B, hne]
  · have : (Poly.simplify B 10 { shape := bad, center := center, xAxis := x, yAxis := y, cached := areaOf bad }).shape = bad := by
      unfold Poly.simplify
      dsimp only
      split_ifs <;> rfl
    rw [this]
    simp [B, hne]

end RgbdSlam.PolygonOps

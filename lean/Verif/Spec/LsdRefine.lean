import Verif.Spec.Lsd
/-
The best segment of a group of weighted points.
-/
namespace RgbdSlam.Lsd.Spec

/-- The segment from `a` to `b`, with direction `theta`: each point is beside it, `width` away at most, each end is the
projection of a point, and no line is closer to the points than that of the segment, for the sum of the weighted squares of
the distances. -/
def Fits (points : List Point) (a b : ℝ × ℝ) (theta width : ℝ) : Prop :=
  1 ≤ width ∧
  (∀ p ∈ points, Beside width a b (p.1, p.2.1) theta) ∧
  (∃ p ∈ points, (p.1 - a.1) * Real.cos theta + (p.2.1 - a.2) * Real.sin theta = 0) ∧
  (∃ p ∈ points, (p.1 - b.1) * Real.cos theta + (p.2.1 - b.2) * Real.sin theta = 0) ∧
  ∀ u v phi : ℝ, deviation points a.1 a.2 theta ≤ deviation points u v phi

end RgbdSlam.Lsd.Spec

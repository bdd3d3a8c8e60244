import Mathlib.Data.Real.Basic
/-
Rectangles around a segment.
-/
namespace RgbdSlam.Lsd.Spec

/-- `q` is in the rectangle around the segment from `a` to `b`: a point of the segment, moved by half the width at most across
the direction `d`. -/
def InRectangle (a b d : ℝ × ℝ) (width : ℝ) (q : ℝ × ℝ) : Prop :=
  ∃ t u : ℝ, 0 ≤ t ∧ t ≤ 1 ∧ |u| ≤ width / 2 ∧
    q = (a.1 + t * (b.1 - a.1) - u * d.2, a.2 + t * (b.2 - a.2) + u * d.1)

end RgbdSlam.Lsd.Spec

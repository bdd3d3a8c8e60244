import Mathlib.Analysis.SpecialFunctions.Trigonometric.Basic
import Mathlib.Logic.Relation
/-
What is asked of a detector of line segments.
-/
namespace RgbdSlam.Lsd.Spec

/-- Two pixels that are the same or touch, by a side or a corner. -/
def Touching (a b : ℕ × ℕ) : Prop := a.1 ≤ b.1 + 1 ∧ b.1 ≤ a.1 + 1 ∧ a.2 ≤ b.2 + 1 ∧ b.2 ≤ a.2 + 1

/-- One can go from any pixel of `l` to any other by touching pixels of `l`. -/
def InOnePiece (l : List (ℕ × ℕ)) : Prop :=
  ∀ a ∈ l, ∀ b ∈ l, Relation.ReflTransGen (fun u v => u ∈ l ∧ v ∈ l ∧ Touching u v) a b

/-- Two directions that differ by `t` at most, up to full turns. -/
def Near (t a b : ℝ) : Prop := ∃ k : ℤ, |a - b - k * (2 * Real.pi)| ≤ t

/-- `a` is the direction of the vector, in radians, between 0 and 2π; any for the null vector. -/
def Points (a x y : ℝ) : Prop :=
  0 ≤ a ∧ a < 2 * Real.pi ∧ ∃ r : ℝ, 0 ≤ r ∧ x = r * Real.cos a ∧ y = r * Real.sin a

/-- An exact arc tangent of (y, x), in degrees. -/
def ExactAtan (atan : ℝ → ℝ → ℝ) : Prop := ∀ y x, Points (atan y x * (Real.pi / 180)) x y

/-- A weighted point: x, y, weight. -/
abbrev Point := ℝ × ℝ × ℝ

/-- The weighted sum of the squares of the distances of points to the line through (x, y) with direction `theta`. -/
noncomputable def deviation (l : List Point) (x y theta : ℝ) : ℝ :=
  (l.map fun p => p.2.2 * (-(p.1 - x) * Real.sin theta + (p.2.1 - y) * Real.cos theta) ^ 2).sum

/-- `a` is beside the segment from `p` to `q`: its orthogonal projection on the line falls between the two ends, `d` away
or less. -/
def Beside (d : ℝ) (p q a : ℝ × ℝ) (theta : ℝ) : Prop :=
  ∃ t s : ℝ, |s| ≤ d ∧
    a.1 = p.1 + t * Real.cos theta - s * Real.sin theta ∧ a.2 = p.2 + t * Real.sin theta + s * Real.cos theta ∧
    ∃ len : ℝ, 0 ≤ t ∧ t ≤ len ∧ q.1 = p.1 + len * Real.cos theta ∧ q.2 = p.2 + len * Real.sin theta

end RgbdSlam.Lsd.Spec

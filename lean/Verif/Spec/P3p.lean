import Verif.Model.P3p
/-
What a pose found from three points should be.
-/
namespace RgbdSlam.P3p.Spec

open Geometry Matrix

/-- The pose moves each point to the ray on which it is seen, at the distance `l i`, without deforming the
scene: `R` is a rotation and `l i • x i = R X i + t`. -/
structure Solves (x X : Fin 3 → V3) (p : Pose) (l : V3) : Prop where
  orthogonal : p.Rᵀ * p.R = 1
  direct : p.R.det = 1
  seen : ∀ i, l i • x i = p.R *ᵥ X i + p.t

noncomputable section

/-- The coefficients of the equation that the quotient of the lengths of two rays satisfies, when the lengths are
in the plane orthogonal to `u`. -/
def equation (g : Scene) (u : V3) : ℝ × ℝ × ℝ :=
  open Classical in
  if |u 0| < |u 1| then
    let w0 := -u 0 / u 1
    let w1 := -u 2 / u 1
    (-g.a13 * w1 * w1 + 2 * (g.a13 * g.b23) * w1 - g.a13 + g.a23,
      2 * (g.a13 * g.b23) * w0 - 2 * (g.a23 * g.b13) - 2 * g.a13 * w0 * w1, -g.a13 * w0 * w0 + g.a23)
  else
    let w0 := -u 1 / u 0
    let w1 := -u 2 / u 0
    ((g.a13 - g.a12) * w1 * w1 + 2 * g.a12 * g.b13 * w1 - g.a12,
      -2 * g.a13 * g.b12 * w1 + 2 * g.a12 * g.b13 * w0 - 2 * w0 * w1 * (g.a12 - g.a13),
      (g.a13 - g.a12) * w0 * w0 - 2 * g.a13 * g.b12 * w0 + g.a13)

/-- The plane does not contain all the lengths of the third ray, the equation has no null root, and its roots are
equal, or far from each other, or there are none. -/
structure RegularPlane (g : Scene) (u : V3) : Prop where
  plane : u 0 ≠ 0 ∨ u 1 ≠ 0
  last : (equation g u).2.2 ≠ 0
  discriminant : (equation g u).2.1 * (equation g u).2.1 - 4 * (equation g u).1 * (equation g u).2.2 ≤ 0 ∨
    1 / 10 ^ 12 ≤ (equation g u).2.1 * (equation g u).2.1 - 4 * (equation g u).1 * (equation g u).2.2

/-- The numbers computed on the way are defined: no division by zero, no root of a negative number. -/
def Regular (g : Scene) : Prop :=
  ∃ (y : ℝ) (e1 e2 : V3) (s1 s2 s : ℝ), gamma g.D1 g.D2 = some y ∧
    eig3x3known0 (g.D1 + y • g.D2) = some (e1, e2, s1, s2) ∧ (div? (-s2) s1).bind sqrt? = some s ∧
    RegularPlane g (e1 - s • e2) ∧ RegularPlane g (e1 + s • e2)

end

end RgbdSlam.P3p.Spec

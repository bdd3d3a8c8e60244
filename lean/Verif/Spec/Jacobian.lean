import Verif.Model.Covariance
import Mathlib.Analysis.Calculus.Deriv.Basic

/-
What it means for a matrix to be the jacobian of a conversion, and the conversions themselves.
-/
namespace RgbdSlam.Covariance.Spec

open Matrix Geometry

/-- `J` contains the partial derivatives of `f` at `x`: entry (i, j) is the derivative of output `i`
when only input `j` varies. -/
def IsJacobian {n m : ℕ} (f : (Fin n → ℝ) → Fin m → ℝ) (x : Fin n → ℝ)
    (J : Matrix (Fin m) (Fin n) ℝ) : Prop :=
  ∀ i j, HasDerivAt (fun t => f (Function.update x j t) i) (J i j) (x j)

noncomputable section

/-- Spherical coordinates (p, theta, phi) to cartesian. -/
def fromSpherical (s : V3) : V3 :=
  ![s 0 * Real.sin (s 1) * Real.cos (s 2), s 0 * Real.sin (s 1) * Real.sin (s 2), s 0 * Real.cos (s 1)]

/-- Cartesian to spherical (p, theta, phi). -/
def toSpherical (v : V3) : V3 :=
  ![Real.sqrt (v 0 ^ 2 + v 1 ^ 2 + v 2 ^ 2), atan2 (Real.sqrt (v 0 ^ 2 + v 1 ^ 2)) (v 2),
    atan2 (v 1) (v 0)]

/-- Inverse depth parameters (first observation, inverse depth, theta, phi) to a world point. -/
def inverseToWorld (s : Fin 6 → ℝ) : V3 :=
  ![s 0 + Real.sin (s 4) * Real.cos (s 5) / s 3, s 1 + Real.sin (s 4) * Real.sin (s 5) / s 3,
    s 2 + Real.cos (s 4) / s 3]

/-- World point to inverse depth parameters, for a fixed first observation. -/
def worldToInverse (first : V3) (p : V3) : Fin 6 → ℝ :=
  ![first 0, first 1, first 2,
    1 / Real.sqrt ((p 0 - first 0) ^ 2 + (p 1 - first 1) ^ 2 + (p 2 - first 2) ^ 2),
    atan2 (Real.sqrt ((p 0 - first 0) ^ 2 + (p 1 - first 1) ^ 2)) (p 2 - first 2),
    atan2 (p 1 - first 1) (p 0 - first 0)]

/-- Camera point to screen (pinhole model), with the depth as third coordinate. -/
def pinhole (fx fy cx cy : ℝ) (p : V3) : V3 := ![fx * p 0 / p 2 + cx, fy * p 1 / p 2 + cy, p 2]

/-- Screen point with depth to camera point. -/
def backProject (fx fy cx cy : ℝ) (s : V3) : V3 :=
  ![s 2 * (s 0 - cx) / fx, s 2 * (s 1 - cy) / fy, s 2]

/-- Plane parameters (normal, d) to the reduced parameters `d * normal`. -/
def reducePlane (v : Fin 4 → ℝ) : V3 := ![v 3 * v 0, v 3 * v 1, v 3 * v 2]

/-- Reduced parameters to plane parameters (normal, d), for a plane with positive `d`. -/
def expandPlane (v : V3) : Fin 4 → ℝ :=
  let d := Real.sqrt (v 0 ^ 2 + v 1 ^ 2 + v 2 ^ 2)
  ![v 0 / d, v 1 / d, v 2 / d, d]

end

end RgbdSlam.Covariance.Spec

import Verif.Model.Geometry
/-
Rotations around the axes of the frame, by an angle in radians.
-/
namespace RgbdSlam.Angles.Spec

open Geometry Matrix

noncomputable section

def rotX (a : ℝ) : M3 := !![1, 0, 0; 0, Real.cos a, -Real.sin a; 0, Real.sin a, Real.cos a]

def rotY (a : ℝ) : M3 := !![Real.cos a, 0, Real.sin a; 0, 1, 0; -Real.sin a, 0, Real.cos a]

def rotZ (a : ℝ) : M3 := !![Real.cos a, -Real.sin a, 0; Real.sin a, Real.cos a, 0; 0, 0, 1]

/-- What the documentation of Eigen says of the angles of the system XYZ: the matrix is the product of the rotations
around X, Y and Z. -/
def IsXyz (xyz : M3 → V3) : Prop :=
  ∀ R : M3, Rᵀ * R = 1 → R.det = 1 → rotX (xyz R 0) * rotY (xyz R 1) * rotZ (xyz R 2) = R

/-- The angle of the rotation from one orientation to another: between 0 and pi, with the trace of the relative
rotation. -/
def IsAngleBetween (R S : M3) (angle : ℝ) : Prop :=
  0 ≤ angle ∧ angle ≤ Real.pi ∧ (R * Sᵀ).trace = 1 + 2 * Real.cos angle

end

end RgbdSlam.Angles.Spec

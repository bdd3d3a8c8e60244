import Verif.Model.Geometry

/-
Specification vocabulary for the geometric properties.
-/
namespace RgbdSlam.Geometry.Spec

open RgbdSlam Matrix

/-- A quaternion that encodes a rotation. -/
def UnitQuat (q : Quat) : Prop := q.w ^ 2 + q.x ^ 2 + q.y ^ 2 + q.z ^ 2 = 1

/-- Squared euclidean distance. -/
def sqDist {n : ℕ} (a b : Fin n → ℝ) : ℝ := ∑ i, (a i - b i) ^ 2

/-- A vector of length one. -/
def UnitVec {n : ℕ} (v : Fin n → ℝ) : Prop := ∑ i, v i ^ 2 = 1

/-- Two vectors at right angle. -/
def Orthogonal {n : ℕ} (v w : Fin n → ℝ) : Prop := ∑ i, v i * w i = 0

/-- Two axes of length one at right angle. -/
structure Orthonormal (x y : V3) : Prop where
  unitX : UnitVec x
  unitY : UnitVec y
  right : Orthogonal x y

/-- The point is on the plane `n . p + d = 0`. -/
def OnPlane (P : Plane) (p : V3) : Prop := ∑ i, P.normal i * p i + P.d = 0

/-- Signed distance to the plane along its normal. -/
noncomputable def signedDistance (P : Plane) (p : V3) : ℝ := ∑ i, P.normal i * p i + P.d

/-- The points of the line through `start` with direction `dir`. -/
def OnLine {n : ℕ} (start dir q : Fin n → ℝ) : Prop := ∃ t : ℝ, ∀ i, q i = start i + t * dir i

/-- The point of the plane through `center` spanned by `x` and `y` with these coordinates. -/
noncomputable def spanPoint (center x y : V3) (a b : ℝ) : V3 := fun i => center i + a * x i + b * y i

/-- `q` is the orthogonal projection of `p` on the plane through `center` spanned by `x` and `y`. -/
def IsProjection (p q center x y : V3) : Prop :=
  (∃ a b, q = spanPoint center x y a b) ∧ Orthogonal (p - q) x ∧ Orthogonal (p - q) y

end RgbdSlam.Geometry.Spec

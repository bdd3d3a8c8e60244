import Verif.Model.PlaneSegment
import Verif.Model.Covariance

/-
The covariance given with a detected plane (src/features/primitives/plane_segment.cpp 192-203), over the reals.
-/
namespace RgbdSlam.PlaneSegment

open RgbdSlam

/-- plane_segment.cpp 194: `pointCloudHessian`. -/
def Stats.hessian {K : Type*} (s : Stats K) : Sym3 K :=
  { xx := s.sxs, yy := s.sys, zz := s.szs, xy := s.sxy, xz := s.szx, yz := s.syz }

/-- The coefficients as a matrix. -/
def Sym3.toMatrix (m : Sym3 ℝ) : Covariance.Sq 3 :=
  !![m.xx, m.xy, m.xz; m.xy, m.yy, m.yz; m.xz, m.yz, m.zz]

open Classical in
/-- plane_segment.cpp 192-203, `get_point_cloud_covariance`, without the assertion of line 197.  The inverse of a
singular matrix has no finite value and is refused by `is_covariance_valid`. -/
noncomputable def Stats.planeCovariance (s : Stats ℝ) : Outcome (Covariance.Sq 3) :=
  let m := s.hessian.toMatrix
  if m.det = 0 then .throws
  else if Covariance.isValid m⁻¹ then .ok m⁻¹ else .throws

/-- plane_segment.cpp 197: the assertion `not double_equal(determinant, 0)`; `eps` as in `Stats.fit`. -/
noncomputable def Stats.assertionHolds (eps : ℝ) (s : Stats ℝ) : Bool := decide (¬ |s.hessian.det - 0| ≤ eps)

/-- primitive_detection.cpp 624-628 with shape_primitives.cpp 48-56: a planar segment with a valid boundary is added to
the planes of the frame, in a function that lets no exception through. -/
noncomputable def addPlane {Boundary : Type} (s : Stats ℝ) (p : Plane ℝ) (b : Boundary)
    (planes : List (Plane ℝ × Covariance.Sq 3 × Boundary)) : Outcome (List (Plane ℝ × Covariance.Sq 3 × Boundary)) :=
  (s.planeCovariance.bind fun c => .ok (planes ++ [(p, c, b)])).noexcept

end RgbdSlam.PlaneSegment

import Verif.Model.Geometry
import Mathlib.LinearAlgebra.Matrix.PosDef

/-
Covariances, their propagation, the Kalman filter and the tracking of points and planes.

Doubles are modelled by the reals: rounding, overflow, NaN and infinities are not modelled, except
where a comment says how a division by zero is represented.
-/
set_option linter.unusedSectionVars false

namespace RgbdSlam.Covariance

open Matrix Geometry

noncomputable section

/-- Square matrices, `Eigen::Matrix<double, N, N>`. -/
abbrev Sq (n : ℕ) := Matrix (Fin n) (Fin n) ℝ

/-- Eigen `selfadjointView<Eigen::Lower>()`: the lower triangle, mirrored. -/
def symLower {n : ℕ} (C : Sq n) : Sq n := Matrix.of fun i j => if j ≤ i then C i j else C j i

/-- Eigen `selfadjointView<Eigen::Upper>()`: the upper triangle, mirrored. -/
def symUpper {n : ℕ} (C : Sq n) : Sq n := Matrix.of fun i j => if i ≤ j then C i j else C j i

/-- `covariance.isApprox(covariance.transpose())` with Eigen's default precision 1e-12: the Frobenius
norms are compared squared, and a matrix and its transpose have the same norm. -/
def approxSymmetric {n : ℕ} (C : Sq n) : Prop :=
  ∑ i, ∑ j, (C i j - C j i) ^ 2 ≤ (1 / 10 ^ 24) * ∑ i, ∑ j, C i j ^ 2

open Classical in
/-- src/utils/covariances.hpp 13-44, `is_covariance_valid`.  The rejection of NaN and infinities has no
counterpart on reals.  Eigen's LDLT decomposition reports `isPositive()` without numerical issue
exactly for the positive semi-definite matrices (in exact arithmetic); the model uses that predicate.
The special case of a 1x1 matrix gives the same answer as the general one. -/
def isValid {n : ℕ} (C : Sq n) : Bool := decide (approxSymmetric C ∧ (symUpper C).PosSemidef)

/-- src/utils/covariances.hpp 55-64, `propagate_covariance`. -/
def propagate {n m : ℕ} (C : Sq n) (J : Matrix (Fin m) (Fin n) ℝ) (epsilon : ℝ := 0) : Sq m :=
  symLower (J * symLower C * Jᵀ) + epsilon • (1 : Sq m)

/-- src/utils/covariances.cpp 12-19, `get_depth_quantization`, with the constants of src/parameters.hpp
16-18 (2.73, 0.74 and -0.53). -/
def depthQuantization (depth : ℝ) : ℝ :=
  max (-(53 / 100) + 74 / 100 / 1000 * depth + 273 / 100 * (1 / 1000) ^ 2 * depth ^ 2) (1 / 2)

/-- The jacobian of src/utils/covariances.cpp 26-28 (camera to screen). -/
def screenJacobian (fx fy : ℝ) (p : V3) : Matrix (Fin 3) (Fin 3) ℝ :=
  !![fx / p 2, 0, -fx * p 0 / p 2 ^ 2;
     0, fy / p 2, -fy * p 1 / p 2 ^ 2;
     0, 0, 1]

/-- src/utils/covariances.cpp 21-32, `get_screen_point_covariance`. -/
def screenPointCovariance (fx fy : ℝ) (p : V3) (C : Sq 3) : Sq 3 := propagate C (screenJacobian fx fy p)

/-- src/utils/covariances.cpp 46-55, `get_camera_point_covariance` of a world point, and 57-66,
`get_world_point_covariance` of a camera point: the same formula with the rotation of the matrix. -/
def movedPointCovariance (C : Sq 3) (M : M4) (poseCovariance : Sq 3) : Sq 3 :=
  propagate C (rotation M) + poseCovariance

/-- The jacobian of src/utils/covariances.cpp 87-89 (screen to camera). -/
def cameraJacobian (fx fy cx cy : ℝ) (s : V3) : Matrix (Fin 3) (Fin 3) ℝ :=
  !![s 2 / fx, 0, |s 0 - cx| / fx;
     0, s 2 / fy, |s 1 - cy| / fy;
     0, 0, 1]

/-- src/utils/covariances.cpp 80-94, `get_camera_point_covariance` of a screen point. -/
def cameraPointCovariance (fx fy cx cy : ℝ) (s : V3) (C : Sq 3) : Sq 3 :=
  propagate C (cameraJacobian fx fy cx cy s)

/-- src/coordinates/point_coordinates.cpp 123-143, `ScreenCoordinate::get_covariance`, with the
depth variance it computes (the quantisation, or 1000 without a valid depth). -/
def screenCovariance (depthVariance : ℝ) : Outcome (Sq 3) :=
  if depthVariance ≤ 0 then .throws
  else
    let C : Sq 3 := !![1 / 100, 0, 0; 0, 1 / 100, 0; 0, 0, depthVariance]
    if isValid C then .ok C else .throws

/-! ## Planes -/

/-- `vector4` of a plane, in the order of `get_parametrization` (plane_coordinates.hpp 42-45). -/
def planeVector (P : Plane) : Fin 4 → ℝ := ![P.normal 0, P.normal 1, P.normal 2, P.d]

/-- Constructor of plane coordinates from a `vector4` (plane_coordinates.hpp 19-22). -/
def planeOfVector (v : Fin 4 → ℝ) : Plane := Plane.make ![v 0, v 1, v 2] (v 3)

/-- The jacobian of src/utils/covariances.cpp 116-136, at the reduced parameters `v = normal * d`. -/
def expandJacobian (v : V3) : Matrix (Fin 4) (Fin 3) ℝ :=
  let sum := v 0 ^ 2 + v 1 ^ 2 + v 2 ^ 2
  let divider := sum * Real.sqrt sum
  let common := 1 / Real.sqrt sum
  !![common - v 0 ^ 2 / divider, -(v 0 * v 1) / divider, -(v 0 * v 2) / divider;
     -(v 0 * v 1) / divider, common - v 1 ^ 2 / divider, -(v 1 * v 2) / divider;
     -(v 0 * v 2) / divider, -(v 1 * v 2) / divider, common - v 2 ^ 2 / divider;
     -v 0 / divider, -v 1 / divider, -v 2 / divider]

/-- src/utils/covariances.cpp 96-150, `compute_plane_covariance`. -/
def planeCovariance (P : Plane) (C : Sq 3) : Outcome (Sq 4) :=
  if !isValid C then .throws
  else if doubleEqual P.d 0 then .throws
  else if !doubleEqual (Geometry.norm P.normal) 1 then .throws
  else
    let R := propagate C (expandJacobian (P.d • P.normal)) (1 / 100)
    if isValid R then .ok R else .throws

/-- The jacobian of src/utils/covariances.cpp 177-181. -/
def reduceJacobian (P : Plane) : Matrix (Fin 3) (Fin 4) ℝ :=
  !![P.d, 0, 0, P.normal 0;
     0, P.d, 0, P.normal 1;
     0, 0, P.d, P.normal 2]

/-- src/utils/covariances.cpp 152-193, `compute_reduced_plane_point_cloud_covariance`. -/
def reducedPlaneCovariance (P : Plane) (C : Sq 4) : Outcome (Sq 3) :=
  if !isValid C then .throws
  else if doubleEqual P.d 0 then .throws
  else if !doubleEqual (Geometry.norm P.normal) 1 then .throws
  else
    let R := propagate C (reduceJacobian P) (1 / 100)
    if isValid R then .ok R else .throws

/-- src/utils/covariances.cpp 195-225, `get_world_plane_covariance`. -/
def worldPlaneCovariance (P : Plane) (c2w planeC2w : M4) (C : Sq 4) (poseCovariance : Sq 3) :
    Outcome (Sq 4) :=
  if !isValid C then .throws
  else
    (reducedPlaneCovariance P C).bind fun R =>
      let W := propagate R (rotation c2w) + poseCovariance
      if isValid W then planeCovariance (P.transform planeC2w) W else .throws

/-! ## Inverse depth points -/

/-- The 3x3 block of src/coordinates/inverse_depth_coordinates.cpp 121-134: the jacobian of the
cartesian position with respect to (inverse depth, theta, phi). -/
def worldJacobianBlock (inverseDepth theta phi : ℝ) : Matrix (Fin 3) (Fin 3) ℝ :=
  let d := 1 / inverseDepth
  let dSqr := 1 / inverseDepth ^ 2
  let theta1 := Real.sin phi * Real.sin theta
  let theta2 := Real.cos phi * Real.sin theta
  !![-theta2 * dSqr, Real.cos phi * (Real.cos theta * d), -theta1 * d;
     -theta1 * dSqr, Real.sin phi * (Real.cos theta * d), theta2 * d;
     -Real.cos theta * dSqr, -Real.sin theta * d, 0]

/-- src/coordinates/inverse_depth_coordinates.cpp 112-140, jacobian of `to_world_coordinates`:
columns 0-2 are the first observation, 3-5 inverse depth, theta and phi. -/
def worldJacobian (p : InverseDepth) : Matrix (Fin 3) (Fin 6) ℝ :=
  Matrix.of fun i (j : Fin 6) =>
    if h : j.val < 3 then (if i.val = j.val then 1 else 0)
    else worldJacobianBlock p.inverseDepth p.theta p.phi i ⟨j.val - 3, by omega⟩

/-- The 3x3 block of src/coordinates/inverse_depth_coordinates.cpp 89-100, at `v = point - origin`. -/
def inverseJacobianBlock (v : V3) : Matrix (Fin 3) (Fin 3) ℝ :=
  let theta1 := v 0 ^ 2 + v 1 ^ 2
  let theta5 := theta1 + v 2 ^ 2
  let theta4 := 1 / (theta5 * Real.sqrt theta5)
  let sqrtTheta1Theta5 := 1 / (Real.sqrt theta1 * theta5)
  !![-v 0 * theta4, -v 1 * theta4, -v 2 * theta4;
     v 0 * v 2 * sqrtTheta1Theta5, v 1 * v 2 * sqrtTheta1Theta5, -Real.sqrt theta1 / theta5;
     -v 1 * (1 / theta1), v 0 * (1 / theta1), 0]

open Classical in
/-- src/coordinates/inverse_depth_coordinates.cpp 79-104, jacobian of `from_cartesian`: rows 0-2 are
zero, 3-5 inverse depth, theta and phi.  When the point is on the vertical line through the origin
`theta1` is 0 and `0 * (1 / 0)` is NaN: the model says `none`. -/
def inverseJacobian (point origin : V3) : Option (Matrix (Fin 6) (Fin 3) ℝ) :=
  if (point - origin) 0 ^ 2 + (point - origin) 1 ^ 2 = 0 then none
  else some (Matrix.of fun (i : Fin 6) j =>
    if h : i.val < 3 then 0 else inverseJacobianBlock (point - origin) ⟨i.val - 3, by omega⟩ j)

/-- The jacobian of src/coordinates/basis_changes.cpp 12-28 (spherical to cartesian). -/
def cartesianJacobian (s : Spherical) : Matrix (Fin 3) (Fin 3) ℝ :=
  let theta1 := Real.sin s.phi * Real.sin s.theta
  let theta2 := Real.cos s.phi * Real.sin s.theta
  !![theta2, s.p * Real.cos s.theta * Real.cos s.phi, -s.p * theta1;
     theta1, s.p * Real.cos s.theta * Real.sin s.phi, s.p * theta2;
     Real.cos s.theta, -s.p * Real.sin s.theta, 0]

/-- The jacobian of src/coordinates/basis_changes.cpp 35-54 (cartesian to spherical). -/
def sphericalJacobian (v : V3) : Matrix (Fin 3) (Fin 3) ℝ :=
  let theta1 := v 0 ^ 2 + v 1 ^ 2 + v 2 ^ 2
  let theta2 := v 0 ^ 2 + v 1 ^ 2
  let inverseTheta1Theta2 := 1 / (Real.sqrt theta2 * theta1)
  !![v 0 / Real.sqrt theta1, v 1 / Real.sqrt theta1, v 2 / Real.sqrt theta1;
     v 0 * v 2 * inverseTheta1Theta2, v 1 * v 2 * inverseTheta1Theta2, -Real.sqrt theta2 / theta1;
     -v 1 / theta2, v 0 / theta2, 0]

/-! ## Kalman filter -/

/-- src/tracking/kalman_filter.hpp 27-35 and 108-114, the matrices of `SharedKalmanFilter`. -/
structure Filter (n m : ℕ) where
  dynamics : Sq n
  output : Matrix (Fin m) (Fin n) ℝ
  noise : Sq n

/-- src/tracking/kalman_filter.hpp 74-78: the inverse of the innovation covariance, or the pseudo
inverse given by Eigen's complete orthogonal decomposition (`pinv`) when its determinant is 0. -/
def innovationInverse {m : ℕ} (pinv : Sq m → Sq m) (S : Sq m) : Sq m :=
  if doubleEqual S.det 0 then pinv S else S⁻¹

/-- src/tracking/kalman_filter.hpp 46-106, `get_new_state`. -/
def Filter.newState {n m : ℕ} (f : Filter n m) (pinv : Sq m → Sq m) (state : Fin n → ℝ) (C : Sq n)
    (measurement : Fin m → ℝ) (R : Sq m) : Outcome ((Fin n → ℝ) × Sq n) :=
  if !isValid C then .throws
  else if !isValid R then .throws
  else
    let estimate := f.dynamics *ᵥ state
    let P := propagate C f.dynamics + f.noise
    let S := propagate P f.output + R
    let gain := symLower P * f.outputᵀ * innovationInverse pinv S
    let newState := estimate + gain *ᵥ (measurement - f.output *ᵥ estimate)
    let newCovariance := symLower ((1 - gain * f.output) * symLower P)
    if isValid newCovariance then .ok (newState, newCovariance) else .throws

/-- src/tracking/kalman_filter.hpp 120-200, `KalmanFilter`; the state is `none` before `init`. -/
structure Kalman (n m : ℕ) where
  filter : Filter n m
  state : Option ((Fin n → ℝ) × Sq n)

/-- src/tracking/kalman_filter.hpp 143-149, `init`. -/
def Kalman.init {n m : ℕ} (k : Kalman n m) (C : Sq n) (x : Fin n → ℝ) : Kalman n m :=
  { k with state := some (x, C) }

/-- src/tracking/kalman_filter.hpp 156-169, `update`. -/
def Kalman.update {n m : ℕ} (k : Kalman n m) (pinv : Sq m → Sq m) (z : Fin m → ℝ) (R : Sq m) :
    Outcome (Kalman n m) :=
  match k.state with
  | none => .throws
  | some (x, C) => (k.filter.newState pinv x C z R).map fun r => { k with state := some r }

/-- The filters of src/tracking/point_with_tracking.cpp 69-83, inverse_depth_with_tracking.cpp
246-260 and plane_with_tracking.cpp 81-95: identity dynamics and output, process noise `noise * I`
with 0.001, 0.0001 and 0.000001. -/
def staticFilter (n : ℕ) (noise : ℝ) : Filter n n :=
  { dynamics := 1, output := 1, noise := noise • 1 }

/-! ## Tracked points -/

/-- src/tracking/point_with_tracking.hpp 16-46, `Point` (without its descriptor, see
Model/MapPoints.lean). -/
structure TrackedPoint where
  coordinates : V3
  covariance : Sq 3
  moving : Bool

open Classical in
/-- src/tracking/point_with_tracking.cpp 52-54 and inverse_depth_with_tracking.cpp 143-144. -/
def movedBeyond (old detection : V3) (C : Sq 3) : Bool :=
  decide (∃ i, Real.sqrt (C i i) < (old - detection) i)

/-- src/tracking/point_with_tracking.cpp 32-67, `Point::track`: the score and the new point. -/
def TrackedPoint.track (p : TrackedPoint) (pinv : Sq 3 → Sq 3) (detection : V3) (C : Sq 3) :
    Outcome (ℝ × TrackedPoint) :=
  if !isValid C then .ok (-1, p)
  else if !isValid p.covariance then .exit
  else
    match (staticFilter 3 (1 / 1000)).newState pinv p.coordinates p.covariance detection C with
    | .ok (x, newC) =>
        .ok (Geometry.norm (p.coordinates - x),
          { coordinates := x, covariance := newC, moving := movedBeyond p.coordinates detection C })
    | .throws => .ok (-1, p)
    | .exit => .exit
    | .terminate => .terminate
    | .ub => .ub
    | .outOfFuel => .outOfFuel

/-- src/tracking/inverse_depth_with_tracking.hpp 33-35 and 127, `PointInverseDepth` (without its
descriptor). -/
structure TrackedInverse where
  coordinates : InverseDepth
  covariance : Sq 6
  moving : Bool

/-- `block<3, 3>(0, 0)` of a 6x6 matrix (inverse_depth_with_tracking.hpp 27). -/
def firstPoseBlock (C : Sq 6) : Sq 3 :=
  Matrix.of fun i j => C ⟨i.val, by omega⟩ ⟨j.val, by omega⟩

/-- `res.block<3, 3>(0, 0) = B`. -/
def setFirstPoseBlock (C : Sq 6) (B : Sq 3) : Sq 6 :=
  Matrix.of fun i j =>
    if h : i.val < 3 ∧ j.val < 3 then B ⟨i.val, h.1⟩ ⟨j.val, h.2⟩ else C i j

/-- src/tracking/inverse_depth_with_tracking.cpp 35-46: the covariance of a new inverse depth point,
with the variances of parameters.hpp. -/
def initialInverseCovariance (B : Sq 3) (inverseDepthVariance angleVariance : ℝ) : Sq 6 :=
  setFirstPoseBlock
    (Matrix.diagonal ![0, 0, 0, inverseDepthVariance, angleVariance, angleVariance]) B

/-- src/tracking/inverse_depth_with_tracking.cpp 185-207, `compute_cartesian_covariance`. -/
def cartesianCovariance (p : InverseDepth) (C : Sq 6) : Outcome (Sq 3) :=
  if !isValid C then .throws
  else
    let R := propagate C (worldJacobian p)
    if isValid R then .ok R else .throws

/-- src/tracking/inverse_depth_with_tracking.cpp 209-229, `compute_inverse_depth_covariance`.  A NaN
jacobian (`none`) gives a covariance with NaN, which the last check rejects. -/
def inverseCovariance (C : Sq 3) (firstPose : Sq 3) (J : Option (Matrix (Fin 6) (Fin 3) ℝ)) :
    Outcome (Sq 6) :=
  if !isValid C then .throws
  else if !isValid firstPose then .throws
  else
    match J with
    | none => .throws
    | some J =>
        let R := setFirstPoseBlock (propagate C J) firstPose
        if isValid R then .ok R else .throws

/-- The part of src/tracking/inverse_depth_with_tracking.cpp 133-155 after the filter: the flag and the
position are written first, then the covariance, which may throw.  The first component says whether
the update returns true. -/
def TrackedInverse.store (p : TrackedInverse) (world point : V3) (C : Sq 3) (x : V3) (newC : Sq 3) :
    Outcome (Bool × TrackedInverse) :=
  let moving := movedBeyond world point C
  (InverseDepth.fromCartesian x p.coordinates.first).bind fun coordinates =>
    let q : TrackedInverse := { p with coordinates := coordinates, moving := moving }
    match inverseCovariance newC (firstPoseBlock p.covariance) (inverseJacobian x p.coordinates.first) with
    | .ok K => .ok (isValid K, { q with covariance := K })
    | _ => .ok (false, q)

/-- src/tracking/inverse_depth_with_tracking.cpp 112-167, `update_with_cartesian`. -/
def TrackedInverse.updateWithCartesian (p : TrackedInverse) (pinv : Sq 3 → Sq 3) (point : V3)
    (C : Sq 3) : Outcome (Bool × TrackedInverse) :=
  if !isValid C then .ok (false, p)
  else if !isValid p.covariance then .exit
  else
    p.coordinates.toWorld.bind fun world =>
      match (cartesianCovariance p.coordinates p.covariance).bind fun K =>
          (staticFilter 3 (1 / 10000)).newState pinv world K point C with
      | .ok (x, newC) => if isValid newC then p.store world point C x newC else .ok (false, p)
      | _ => .ok (false, p)

/-! ## Tracked planes -/

/-- src/tracking/plane_with_tracking.hpp 37-39, `Plane`. -/
structure TrackedPlane where
  plane : Plane
  covariance : Sq 4
  boundary : Polygon

/-- src/utils/polygon.cpp 338-347, `project(nextNormal, nextCenter)`. -/
def projectPolygon (P : Polygon) (normal center : V3) : Outcome Polygon :=
  if !doubleEqual (Geometry.norm normal) 1 then .throws
  else (planeBasis normal).bind fun axes => P.project axes.1 axes.2 center

/-- src/tracking/plane_with_tracking.cpp 61-79, `update_boundary_polygon` (noexcept): `none` when it
returns false.  `merge` stands for the conversion of the detected polygon to world space and the
merge (src/utils/polygon.cpp 325-336), whose result comes from boost. -/
def updateBoundary (merge : Polygon → Outcome Polygon) (P : Polygon) (plane : Plane) :
    Outcome (Option Polygon) :=
  ((projectPolygon P plane.normal plane.center).bind fun Q =>
    if isApprox Q.center plane.center then (merge Q).map some else .ok none).noexcept

/-- src/tracking/plane_with_tracking.cpp 33-59: the fused parameters. -/
def fusePlane (pinv : Sq 4 → Sq 4) (p : TrackedPlane) (detection : Plane) (C : Sq 4) :
    Outcome ((Fin 4 → ℝ) × Sq 4) :=
  (staticFilter 4 (1 / 10 ^ 6)).newState pinv (planeVector p.plane) p.covariance
    (planeVector detection) C

/-- src/tracking/plane_with_tracking.cpp 16-59, `Plane::track`.  The second component is the plane
after the call, also when the call throws (first component `none`). -/
def TrackedPlane.track (p : TrackedPlane) (pinv : Sq 4 → Sq 4) (merge : Polygon → Outcome Polygon)
    (detection : Plane) (C : Sq 4) : Outcome (Option ℝ × TrackedPlane) :=
  if !isValid C then .ok (some 0, p)
  else if !isValid p.covariance then .exit
  else
    match fusePlane pinv p detection C with
    | .ok (x, newC) =>
        let score := Real.sqrt ((planeVector p.plane - planeVector (planeOfVector x)) ⬝ᵥ
          (planeVector p.plane - planeVector (planeOfVector x)))
        let q : TrackedPlane := { p with plane := planeOfVector x, covariance := newC }
        (updateBoundary merge p.boundary q.plane).bind fun
          | none => .ok (none, q)
          | some B =>
              if !doubleEqual (Geometry.norm q.plane.normal) 1 then .terminate
              else if !isValid newC then .terminate
              else .ok (some score, { q with boundary := B })
    | .throws => .ok (none, p)
    | .exit => .exit
    | .terminate => .terminate
    | .ub => .ub
    | .outOfFuel => .outOfFuel

end

end RgbdSlam.Covariance

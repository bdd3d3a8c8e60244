import Verif.Model.Covariance

/-
The parametrisation of rotations used by the pose optimisation, its residuals, the variance of the
optimised pose, and the motion model.

Doubles are modelled by the reals, except where a comment says how a NaN is represented.
-/
set_option linter.unusedSectionVars false

namespace RgbdSlam.Optimizer

open Matrix Geometry Covariance

noncomputable section

/-! ## Optimisation coefficients -/

/-- src/pose_optimization/levenberg_marquardt_functors.cpp 14-27,
`get_optimization_coefficients_from_quaternion`. -/
def coefficientsOfQuat (q : Quat) : V3 :=
  let divider := 1 / max (1 + q.z) (1 / 1000)
  ![q.w * divider, q.x * divider, q.y * divider]

/-- src/pose_optimization/levenberg_marquardt_functors.cpp 29-38,
`get_quaternion_from_optimization_coefficients`. -/
def quatOfCoefficients (c : V3) : Quat :=
  let alpha := c 0 ^ 2 + c 1 ^ 2 + c 2 ^ 2
  let divider := 1 / (alpha + 1)
  { w := 2 * c 0 * divider, x := 2 * c 1 * divider, y := 2 * c 2 * divider, z := (1 - alpha) * divider }

/-- src/pose_optimization/levenberg_marquardt_functors.cpp 40-72,
`get_quaternion_from_optimization_coefficients_jacobian` (rows w, x, y, z). -/
def coefficientsJacobian (c : V3) : Matrix (Fin 4) (Fin 3) ℝ :=
  let theta6 := c 0 ^ 2 + c 1 ^ 2 + c 2 ^ 2
  let theta5 := theta6 + 1
  let theta1 := theta6 - 1
  let theta2 := -(4 * c 1 * c 2) / theta5 ^ 2
  let theta3 := -(4 * c 0 * c 2) / theta5 ^ 2
  let theta4 := -(4 * c 0 * c 1) / theta5 ^ 2
  let multiplierDiag := -4 / theta5 ^ 2
  let multiA := 2 * theta1 / theta5 ^ 2
  let multiB := -2 / theta5
  !![2 / theta5 - c 0 ^ 2 * multiplierDiag, theta4, theta3;
     theta4, 2 / theta5 - c 1 ^ 2 * multiplierDiag, theta2;
     theta3, theta2, 2 / theta5 - c 2 ^ 2 * multiplierDiag;
     c 0 * multiA + c 0 * multiB, c 1 * multiA + c 1 * multiB, c 2 * multiA + c 2 * multiB]

/-- src/pose_optimization/levenberg_marquardt_functors.cpp 74-80,
`get_optimization_coefficient_from_pose`. -/
def coefficientsOfPose (p : Pose) : Fin 6 → ℝ :=
  let c := coefficientsOfQuat p.orientation
  ![p.position 0, p.position 1, p.position 2, c 0, c 1, c 2]

/-- src/pose_optimization/levenberg_marquardt_functors.cpp 82-86,
`get_pose_from_optimization_coefficients`. -/
def poseOfCoefficients (c : Fin 6 → ℝ) : Pose :=
  Pose.ofParameters ![c 0, c 1, c 2] (quatOfCoefficients ![c 3, c 4, c 5])

/-! ## Residuals -/

/-- What the estimator uses of a match (`IOptimizationFeature`, src/matches_containers.hpp): the number
of residuals, the score, the weight, and the distance vector seen from a pose, `none` when one of its coefficients
is a NaN. -/
structure Feature where
  parts : ℕ
  score : ℝ
  alpha : ℝ
  distance : M4 → Option (List ℝ)

/-- src/pose_optimization/levenberg_marquardt_functors.cpp 103-125, constructor of
`Global_Pose_Estimator`: the number of residuals and the features it was built with. -/
def buildEstimator (parts : ℕ) (features : List Feature) : Outcome (ℕ × List Feature) :=
  if features.isEmpty ∨ parts = 0 then .throws
  else if features.foldl (fun n f => n + f.parts) 0 ≠ parts then .throws
  else .ok (parts, features)

/-- `outputScores.segment(index, values.size()) = values`: writing a block of a vector. -/
def writeSegment (out : List ℝ) (index : ℕ) (values : List ℝ) : List ℝ :=
  out.take index ++ values ++ out.drop (index + values.length)

/-- The loop of src/pose_optimization/levenberg_marquardt_functors.cpp 153-167; `index` is
`featureScoreIndex`.  A block that does not fit in the vector stops on Eigen's assertion. -/
def residualLoop (w2c : M4) : List Feature → ℕ → List ℝ → Outcome (List ℝ)
  | [], _, out => .ok out
  | f :: fs, index, out =>
    match f.distance w2c with
    | none => residualLoop w2c fs (index + f.parts) out
    | some d =>
      if f.parts ≠ d.length then .terminate
      else if out.length < index + f.parts then .terminate
      else residualLoop w2c fs (index + f.parts)
        (writeSegment out index (d.map fun x => x * f.alpha / f.parts))

/-- src/pose_optimization/levenberg_marquardt_functors.cpp 128-169, `operator()`: `out` is the content of
the output vector on entry.  The two early returns on NaN coefficients have no counterpart on reals. -/
def residuals (estimator : ℕ × List Feature) (coefficients : Fin 6 → ℝ) (out : List ℝ) :
    Outcome (List ℝ) :=
  if estimator.2.isEmpty then .terminate
  else if out.length ≠ estimator.1 then .terminate
  else
    let pose := poseOfCoefficients coefficients
    residualLoop (worldToCamera pose.orientation pose.position) estimator.2 0 out

/-! ## The three kinds of matches -/

/-- `std::numeric_limits<double>::max()`. -/
def maxDouble : ℝ := (2 - 1 / 2 ^ 52) * 2 ^ 1023

/-- src/coordinates/point_coordinates.cpp 241-257, `WorldCoordinate::get_signed_distance_2D_px`. -/
def signedPixelDistance (K : M3) (screen : V2) (w2c : M4) (point : V3) : V2 :=
  match cameraToScreen K (pointToCamera w2c point) with
  | some s => ![screen 0 - s 0, screen 1 - s 1]
  | none => ![maxDouble, maxDouble]

open Classical in
/-- src/coordinates/point_coordinates.cpp 259-274, `WorldCoordinate::get_distance_px`. -/
def pixelDistance (K : M3) (screen : V2) (w2c : M4) (point : V3) : ℝ :=
  let d := signedPixelDistance K screen w2c point
  if maxDouble ≤ d 0 ∨ maxDouble ≤ d 1 then maxDouble else |d 0| + |d 1|

open Classical in
/-- src/map_management/map_features/map_point.cpp 34-38, `PointOptimizationFeature::is_inlier`
(threshold of src/parameters.hpp 25-26). -/
def pointInlier (K : M3) (screen : V2) (point : V3) (w2c : M4) : Bool :=
  decide (pixelDistance K screen w2c point ≤ 3)

/-- src/map_management/map_features/map_point.cpp 26-47, `PointOptimizationFeature` (score: one over
`minimumPointForOptimization`, src/parameters.hpp 40). -/
def pointFeature (K : M3) (screen : V2) (point : V3) : Feature :=
  { parts := 2, score := 1 / 5, alpha := 1
    distance := fun w2c =>
      let d := signedPixelDistance K screen w2c point
      some [d 0, d 1] }

/-- src/coordinates/inverse_depth_coordinates.cpp 156-174, `to_screen_coordinates` in a 2D segment;
`none` when it returns false. -/
def inverseScreenSegment (K : M3) (p : InverseDepth) (inverseDepthCovariance : ℝ) (w2c : M4) :
    Option (V2 × V2) :=
  let std := Real.sqrt inverseDepthCovariance
  match cameraToScreen K (pointToCamera w2c (p.furthest std)),
      cameraToScreen K (pointToCamera w2c (p.closest std)) with
  | some a, some b => some (![a 0, a 1], ![b 0, b 1])
  | _, _ => none

/-- src/coordinates/inverse_depth_coordinates.cpp 58-68, `compute_signed_screen_distance`. -/
def inverseScreenDistance (K : M3) (p : InverseDepth) (screen : V2) (inverseDepthCovariance : ℝ)
    (w2c : M4) : V2 :=
  match inverseScreenSegment K p inverseDepthCovariance w2c with
  | some (a, b) => lineDistance a (segmentNormal a b) screen
  | none => ![maxDouble, maxDouble]

/-- src/map_management/map_features/map_point2d.cpp 40-45, `Point2dOptimizationFeature::get_distance`:
the standard deviation is given where a covariance is expected. -/
def point2dDistance (K : M3) (screen : V2) (p : InverseDepth) (inverseDepthStd : ℝ) (w2c : M4) : V2 :=
  inverseScreenDistance K p screen inverseDepthStd w2c

open Classical in
/-- src/map_management/map_features/map_point2d.cpp 33-38, `Point2dOptimizationFeature::is_inlier`
(threshold of src/parameters.hpp 23-24). -/
def point2dInlier (K : M3) (screen : V2) (p : InverseDepth) (inverseDepthStd : ℝ) (w2c : M4) : Bool :=
  let d := point2dDistance K screen p inverseDepthStd w2c
  decide (d 0 ≤ 3 ∧ d 1 ≤ 3)

/-- src/map_management/map_features/map_point2d.cpp 25-47, `Point2dOptimizationFeature`. -/
def point2dFeature (K : M3) (screen : V2) (p : InverseDepth) (inverseDepthStd : ℝ) : Feature :=
  { parts := 2, score := 1 / 5, alpha := 3 / 10
    distance := fun w2c =>
      let d := point2dDistance K screen p inverseDepthStd w2c
      some [d 0, d 1] }

/-- src/coordinates/plane_coordinates.cpp 26-38, `PlaneWorldCoordinates::get_signed_distance`. -/
def planeSignedDistance (world camera : Plane) (planeW2c : M4) : Fin 4 → ℝ :=
  let projected := world.transform planeW2c
  ![angleDistance (camera.normal 0) (projected.normal 0),
    angleDistance (camera.normal 1) (projected.normal 1),
    angleDistance (camera.normal 2) (projected.normal 2), camera.d - projected.d]

open Classical in
/-- src/map_management/map_features/map_primitive.cpp 34-50, `PlaneOptimizationFeature::is_inlier`
(thresholds of src/parameters.hpp 27-30; the single precision 0.2 is taken as one fifth). -/
def planeInlier (camera world : Plane) (w2c : M4) : Bool :=
  let e := planeSignedDistance world camera (planeWorldToCamera w2c)
  decide (|e 0| ≤ 1 / 5 ∧ |e 1| ≤ 1 / 5 ∧ |e 2| ≤ 1 / 5 ∧ |e 3| ≤ 50)

/-- src/map_management/map_features/map_primitive.cpp 26-65, `PlaneOptimizationFeature`. -/
def planeFeature (camera world : Plane) : Feature :=
  { parts := 3, score := 1 / 3, alpha := 1
    distance := fun w2c =>
      let d := Plane.reducedDistance world camera (planeWorldToCamera w2c)
      some [d 0, d 1, d 2] }

/-- A match produced by one of the three feature maps. -/
inductive Match where
  | point (screen : V2) (mapPoint : V3)
  | point2d (screen : V2) (mapPoint : InverseDepth) (inverseDepthStd : ℝ)
  | plane (camera world : Plane)

/-- The optimisation feature of a match. -/
def Match.feature (K : M3) : Match → Feature
  | .point s p => pointFeature K s p
  | .point2d s p std => point2dFeature K s p std
  | .plane c w => planeFeature c w

/-! ## Optimisation -/

open Classical in
/-- src/pose_optimization/pose_optimization.cpp 302-359, `compute_optimized_global_pose`: whether it
succeeds, and the content of the output pose.  `minimise` stands for the search of
`Eigen::LevenbergMarquardt::minimize` (`none`: a status that is not positive); Eigen refuses a problem
with fewer residuals than unknowns.  `input.cols()` is 1, since the input is a column.  The function is
noexcept. -/
def globalPose (minimise : (Fin 6 → ℝ) → ℕ × List Feature → Option (Fin 6 → ℝ)) (current output : Pose)
    (features : List Feature) : Outcome (Bool × Pose) :=
  let input := coefficientsOfPose current
  let parts := features.foldl (fun n f => n + f.parts) 0
  let score := features.foldl (fun x f => x + f.score) 0
  if parts ≤ 1 then .ok (false, output)
  else if score < 1 then .ok (false, output)
  else
    ((buildEstimator parts features).bind fun estimator =>
      match (if estimator.1 < 6 then none else minimise input estimator) with
      | none => .ok (false, output)
      | some c =>
        let p := poseOfCoefficients c
        .ok (true, Pose.ofParameters p.position p.orientation)).noexcept

/-! ## The pose as a vector -/

open Classical in
/-- Eigen 3.4 `eulerAngles(0, 1, 2)` of a rotation matrix (`Eigen/src/Geometry/EulerAngles.h`), with
`i = 0`, `j = 1`, `k = 2` and `odd = 0`. -/
def eulerAngles (R : M3) : V3 :=
  let res0 := atan2 (R 1 2) (R 2 2)
  let c2 := Real.sqrt (R 0 0 ^ 2 + R 0 1 ^ 2)
  let first := if 0 < res0 then res0 - Real.pi else res0
  let second := if 0 < res0 then atan2 (-R 0 2) (-c2) else atan2 (-R 0 2) c2
  let s1 := Real.sin first
  let c1 := Real.cos first
  let third := atan2 (s1 * R 2 0 - c1 * R 1 0) (c1 * R 1 1 - s1 * R 2 1)
  ![-first, -second, -third]

/-- src/utils/pose.hpp 28-36, `get_vector`. -/
def poseVector (p : Pose) : Fin 6 → ℝ :=
  let e := eulerAngles p.orientation.toRotationMatrix
  ![p.position 0, p.position 1, p.position 2, e 0, e 1, e 2]

/-! ## Variance of the optimised pose -/

/-- `medium` of src/pose_optimization/pose_optimization.cpp 374, 396 and 415. -/
def meanVector (poses : List (Fin 6 → ℝ)) : Fin 6 → ℝ :=
  (1 / (poses.length : ℝ)) • poses.foldl (fun acc p => acc + p) 0

/-- `static_cast<double>(poses.size() - 1)` (line 422): the subtraction is on `size_t`. -/
def varianceDivisor (n : ℕ) : ℝ := if n = 0 then 2 ^ 64 - 1 else (n : ℝ) - 1

/-- src/pose_optimization/pose_optimization.cpp 417-424. -/
def samplesCovariance (poses : List (Fin 6 → ℝ)) : Sq 6 :=
  (1 / varianceDivisor poses.length) •
      poses.foldl (fun acc p => acc + vecMulVec (p - meanVector poses) (p - meanVector poses)) 0 +
    (1 / 1000 : ℝ) • 1

/-- src/pose_optimization/pose_optimization.cpp 361-437, `compute_pose_variance`, as a function of the
vectors of the poses that were optimised successfully, in the order in which they were stored; `none`
when it returns false.  With one pose the sum is divided by zero: 0/0 is a NaN, refused by
`is_covariance_valid`. -/
def poseVariance (iterations : ℕ) (poses : List (Fin 6 → ℝ)) : Option (Sq 6) :=
  if iterations = 0 then none
  else if poses.length < iterations / 2 then none
  else if poses.length = 1 then none
  else if isValid (samplesCovariance poses) then some (samplesCovariance poses)
  else none

/-! ## Motion model -/

/-- Eigen quaternion `inverse()`: the conjugate over the squared norm, zero for a zero quaternion. -/
def Quat.inverse (q : Quat) : Quat :=
  { w := q.w / q.normSq, x := -q.x / q.normSq, y := -q.y / q.normSq, z := -q.z / q.normSq }

/-- Eigen quaternion `dot`. -/
def Quat.dot (a b : Quat) : ℝ := a.w * b.w + a.x * b.x + a.y * b.y + a.z * b.z

/-- `scale0 * a.coeffs() + scale1 * b.coeffs()`. -/
def Quat.combine (scale0 scale1 : ℝ) (a b : Quat) : Quat :=
  { w := scale0 * a.w + scale1 * b.w, x := scale0 * a.x + scale1 * b.x
    y := scale0 * a.y + scale1 * b.y, z := scale0 * a.z + scale1 * b.z }

open Classical in
/-- Eigen 3.4 `a.slerp(t, b)` (`Eigen/src/Geometry/Quaternion.h`). -/
def Quat.slerp (a : Quat) (t : ℝ) (b : Quat) : Quat :=
  let d := Quat.dot a b
  let theta := Real.arccos |d|
  let scale0 := if 1 - doubleEps ≤ |d| then 1 - t else Real.sin ((1 - t) * theta) / Real.sin theta
  let scale1 := if 1 - doubleEps ≤ |d| then t else Real.sin (t * theta) / Real.sin theta
  Quat.combine scale0 (if d < 0 then -scale1 else scale1) a b

/-- The identity rotation. -/
def Quat.identity : Quat := { w := 1, x := 0, y := 0, z := 0 }

/-- src/tracking/motion_model.hpp, the members of `Motion_Model`. -/
structure MotionModel where
  lastQ : Quat
  angularVelocity : Quat
  lastPosition : V3
  linearVelocity : V3
  isSet : Bool

/-- src/tracking/motion_model.cpp 5-16, constructor and `reset()`. -/
def MotionModel.fresh : MotionModel :=
  { lastQ := Quat.identity, angularVelocity := Quat.identity, lastPosition := 0, linearVelocity := 0
    isSet := false }

/-- src/tracking/motion_model.cpp 18-27, `reset(lastPosition, lastRotation)`. -/
def MotionModel.resetTo (position : V3) (rotation : Quat) : MotionModel :=
  { lastQ := rotation, angularVelocity := Quat.identity, lastPosition := position, linearVelocity := 0
    isSet := true }

/-- src/utils/pose.hpp 60-90, `Pose`: a pose with its covariance. -/
structure PoseVar where
  pose : Pose
  variance : Sq 6

/-- The diagonal of src/tracking/motion_model.cpp 58-64. -/
def poseError (shouldIncrease : Bool) : Sq 6 :=
  if shouldIncrease then
    diagonal ![10 * 10, 10 * 10, 10 * 10, (1 / 10) * (1 / 10), (1 / 10) * (1 / 10), (1 / 10) * (1 / 10)]
  else 0

/-- src/tracking/motion_model.cpp 29-71, `predict_next_pose`: the prediction and the new state. -/
def MotionModel.predict (m : MotionModel) (current : PoseVar) (shouldIncrease : Bool) :
    PoseVar × MotionModel :=
  let position := current.pose.position
  let rotation := current.pose.orientation
  if m.isSet = false then
    ({ pose := Pose.ofParameters position rotation, variance := current.variance },
      { m with lastQ := rotation, lastPosition := position, isSet := true })
  else
    let linear := (1 / 2 : ℝ) • ((position - m.lastPosition) + m.linearVelocity)
    let diff := rotation.mul (Quat.inverse m.lastQ)
    let angular := (Quat.slerp diff (1 / 2) m.angularVelocity).normalized
    let m' : MotionModel :=
      { lastQ := rotation, angularVelocity := angular, lastPosition := position
        linearVelocity := linear, isSet := true }
    ({ pose := Pose.ofParameters (m'.lastPosition + m'.linearVelocity) (rotation.mul angular).normalized
       variance := current.variance + poseError shouldIncrease }, m')

end

end RgbdSlam.Optimizer

import Verif.Model.Outcome
import Mathlib.LinearAlgebra.CrossProduct
import Mathlib.LinearAlgebra.Matrix.NonsingularInverse
import Mathlib.Analysis.SpecialFunctions.Trigonometric.Basic
import Mathlib.Analysis.SpecialFunctions.Complex.Arg

/-
Frames, points, planes, inverse depth points, polygon bases and lines.

Doubles are modelled by the reals: rounding, overflow, NaN and signed zeros are not modelled.
`Matrix.⁻¹` of Mathlib (the inverse of an invertible matrix) stands for Eigen's `inverse()`.
-/
set_option linter.unusedSectionVars false

namespace RgbdSlam.Geometry

open Matrix

noncomputable section

/-- Fixed size vectors and matrices (src/types.hpp 12-50). -/
abbrev V2 := Fin 2 → ℝ
abbrev V3 := Fin 3 → ℝ
abbrev M3 := Matrix (Fin 3) (Fin 3) ℝ

/-- Rows and columns of a 4x4 matrix: three coordinates and the homogeneous one.
`inl i` is index `i`, `inr 0` is index 3. -/
abbrev H := Fin 3 ⊕ Fin 1
abbrev V4 := H → ℝ
abbrev M4 := Matrix H H ℝ

/-- `std::numeric_limits<double>::epsilon()` = 2^-52, default of `double_equal`
(src/utils/distance_utils.hpp 24-26). -/
def doubleEps : ℝ := 1 / 2 ^ 52

open Classical in
/-- src/utils/distance_utils.cpp 11, `double_equal`. -/
def doubleEqual (a b : ℝ) (eps : ℝ := doubleEps) : Bool := decide (|a - b| ≤ eps)

/-- Eigen `norm()`. -/
def norm {n : ℕ} (v : Fin n → ℝ) : ℝ := Real.sqrt (v ⬝ᵥ v)

open Classical in
/-- Eigen `normalized()`: the zero vector is returned unchanged. -/
def normalized {n : ℕ} (v : Fin n → ℝ) : Fin n → ℝ :=
  if 0 < v ⬝ᵥ v then (norm v)⁻¹ • v else v

open Classical in
/-- Eigen `isApprox` with its default precision 1e-12 for doubles. -/
def isApprox {n : ℕ} (v w : Fin n → ℝ) : Bool :=
  decide ((v - w) ⬝ᵥ (v - w) ≤ (1 / 10 ^ 24) * min (v ⬝ᵥ v) (w ⬝ᵥ w))

/-! ## Quaternions -/

/-- `quaternion` (src/types.hpp, Eigen::Quaterniond). -/
structure Quat where
  w : ℝ
  x : ℝ
  y : ℝ
  z : ℝ

namespace Quat

/-- Eigen `squaredNorm()`. -/
def normSq (q : Quat) : ℝ := q.w * q.w + q.x * q.x + q.y * q.y + q.z * q.z

open Classical in
/-- Eigen `normalized()` on the coefficients. -/
def normalized (q : Quat) : Quat :=
  if 0 < q.normSq then
    { w := q.w / Real.sqrt q.normSq, x := q.x / Real.sqrt q.normSq
      y := q.y / Real.sqrt q.normSq, z := q.z / Real.sqrt q.normSq }
  else q

/-- Eigen quaternion product. -/
def mul (a b : Quat) : Quat :=
  { w := a.w * b.w - a.x * b.x - a.y * b.y - a.z * b.z
    x := a.w * b.x + a.x * b.w + a.y * b.z - a.z * b.y
    y := a.w * b.y + a.y * b.w + a.z * b.x - a.x * b.z
    z := a.w * b.z + a.z * b.w + a.x * b.y - a.y * b.x }

/-- Eigen `toRotationMatrix()` (the same products, in the same places). -/
def toRotationMatrix (q : Quat) : M3 :=
  !![1 - (2 * q.y * q.y + 2 * q.z * q.z), 2 * q.y * q.x - 2 * q.z * q.w, 2 * q.z * q.x + 2 * q.y * q.w;
     2 * q.y * q.x + 2 * q.z * q.w, 1 - (2 * q.x * q.x + 2 * q.z * q.z), 2 * q.z * q.y - 2 * q.x * q.w;
     2 * q.z * q.x - 2 * q.y * q.w, 2 * q.z * q.y + 2 * q.x * q.w, 1 - (2 * q.x * q.x + 2 * q.y * q.y)]

/-- `Eigen::AngleAxisd(angle, axis)` converted to a quaternion. -/
def ofAngleAxis (angle : ℝ) (axis : V3) : Quat :=
  { w := Real.cos (angle / 2), x := Real.sin (angle / 2) * axis 0
    y := Real.sin (angle / 2) * axis 1, z := Real.sin (angle / 2) * axis 2 }

/-- src/utils/angle_utils.cpp 6-11, `get_quaternion_from_euler_angles`: the product of the
rotations around X (roll), Y (pitch) and Z (yaw). -/
def ofEuler (yaw pitch roll : ℝ) : Quat :=
  ((ofAngleAxis roll ![1, 0, 0]).mul (ofAngleAxis pitch ![0, 1, 0])).mul
    (ofAngleAxis yaw ![0, 0, 1])

end Quat

/-! ## Poses -/

/-- src/utils/pose.hpp 11-55, `PoseBase`. -/
structure Pose where
  position : V3
  orientation : Quat

/-- src/utils/pose.cpp 10-14, default constructor. -/
def Pose.default : Pose := { position := 0, orientation := { w := 1, x := 0, y := 0, z := 0 } }

/-- src/utils/pose.cpp 16-22, constructor and `set_parameters`. -/
def Pose.ofParameters (position : V3) (orientation : Quat) : Pose :=
  { position := position, orientation := orientation.normalized }

/-- src/utils/pose.cpp 24-28, `update`. -/
def Pose.update (p : Pose) (position : V3) (orientation : Quat) : Pose :=
  { position := p.position + position, orientation := p.orientation.mul orientation }

/-! ## Changes of frame -/

/-- src/utils/camera_transformation.hpp 8-19, `get_transformation_matrix(rotation, position)`. -/
def transformation (R : M3) (p : V3) : M4 :=
  fromBlocks R (Matrix.of fun i _ => p i) 0 1

/-- src/types.hpp 52-69, `TransitionMatrix::rotation()`. -/
def rotation (M : M4) : M3 := M.toBlocks₁₁

/-- src/types.hpp 52-69, `TransitionMatrix::translation()`. -/
def translation (M : M4) : V3 := fun i => M (Sum.inl i) (Sum.inr 0)

/-- `point.homogeneous()`. -/
def homogeneous (p : V3) : V4 := Sum.elim p fun _ => 1

/-- src/utils/camera_transformation.cpp 11-13, the static `CameraToWorld` matrix. -/
def cameraAxes : M4 :=
  transformation (Quat.ofEuler 0 (90 * (Real.pi / 180)) (-90 * (Real.pi / 180))).toRotationMatrix 0

/-- src/utils/camera_transformation.cpp 15-18, `compute_camera_to_world_transform(rotation, position)`. -/
def cameraToWorld (q : Quat) (p : V3) : M4 := cameraAxes * transformation q.toRotationMatrix p

/-- src/utils/camera_transformation.cpp 39-44, `compute_world_to_camera_transform(cameraToWorld)`. -/
def worldToCameraOf (c2w : M4) : M4 := c2w⁻¹

/-- src/utils/camera_transformation.cpp 34-37, `compute_world_to_camera_transform(rotation, position)`. -/
def worldToCamera (q : Quat) (p : V3) : M4 := worldToCameraOf (cameraToWorld q p)

/-- src/utils/camera_transformation.cpp 20-25, `compute_camera_to_world_transform(worldToCamera)`. -/
def cameraToWorldOf (w2c : M4) : M4 := w2c⁻¹

/-- src/coordinates/point_coordinates.cpp 195-198, `CameraCoordinate::to_world_coordinates`. -/
def pointToWorld (c2w : M4) (p : V3) : V3 := fun i => (c2w *ᵥ homogeneous p) (Sum.inl i)

/-- src/coordinates/point_coordinates.cpp 288-293, `WorldCoordinate::to_camera_coordinates`, with the
constructor of `CameraCoordinate` from homogeneous coordinates (point_coordinates.hpp 128-131). -/
def pointToCamera (w2c : M4) (p : V3) : V3 := fun i =>
  (w2c *ᵥ homogeneous p) (Sum.inl i) / (w2c *ᵥ homogeneous p) (Sum.inr 0)

/-! ## Planes -/

/-- src/coordinates/plane_coordinates.hpp 16-68, `PlaneCoordinates`. -/
structure Plane where
  normal : V3
  d : ℝ

/-- src/coordinates/plane_coordinates.hpp 19-27: every constructor normalises the normal and keeps
`d` as it is. -/
def Plane.make (normal : V3) (d : ℝ) : Plane := { normal := normalized normal, d := d }

/-- src/coordinates/plane_coordinates.hpp 19-22, constructor from the 4 parameters. -/
def Plane.ofV4 (v : V4) : Plane := Plane.make (fun i => v (Sum.inl i)) (v (Sum.inr 0))

/-- src/coordinates/plane_coordinates.hpp 42-45, `get_parametrization`. -/
def Plane.parametrization (p : Plane) : V4 := Sum.elim p.normal fun _ => p.d

/-- src/coordinates/plane_coordinates.hpp 52, `get_center`. -/
def Plane.center (p : Plane) : V3 := (-p.d) • p.normal

/-- src/coordinates/plane_coordinates.hpp 53-57, `get_point_distance`. -/
def Plane.distance (p : Plane) (x : V3) : ℝ := p.normal ⬝ᵥ x + p.d

/-- src/utils/camera_transformation.cpp 53-61, `compute_plane_camera_to_world_matrix`. -/
def planeCameraToWorld (c2w : M4) : M4 :=
  fromBlocks (rotation c2w) 0 (Matrix.of fun _ j => -(translation c2w ᵥ* rotation c2w) j) 1

/-- src/utils/camera_transformation.cpp 63-71, `compute_plane_world_to_camera_matrix`. -/
def planeWorldToCamera (w2c : M4) : M4 := (planeCameraToWorld (cameraToWorldOf w2c))⁻¹

/-- src/coordinates/plane_coordinates.cpp 14-18 and 20-24, `to_world_coordinates` and
`to_camera_coordinates`: the parameters times the matrix, through the constructor. -/
def Plane.transform (M : M4) (p : Plane) : Plane := Plane.ofV4 (M *ᵥ p.parametrization)

/-- src/coordinates/plane_coordinates.cpp 49-56, `get_reduced_signed_distance` of a world plane to a
detected camera plane. -/
def Plane.reducedDistance (world camera : Plane) (planeW2c : M4) : V3 :=
  camera.d • camera.normal - (world.transform planeW2c).d • (world.transform planeW2c).normal

/-! ## Screen -/

/-- The camera 1 intrinsics matrix (src/parameters.cpp, `get_camera_1_intrinsics`). -/
def intrinsics (fx fy cx cy : ℝ) : M3 := !![fx, 0, cx; 0, fy, cy; 0, 0, 1]

/-- src/coordinates/point_coordinates.cpp 80-84, `transform_screen_to_camera`. -/
def screenToCamera2 (K : M3) (s : V2) : V2 :=
  ![(K⁻¹ *ᵥ ![s 0, s 1, 1]) 0, (K⁻¹ *ᵥ ![s 0, s 1, 1]) 1]

/-- src/coordinates/point_coordinates.cpp 89-93, `transform_camera_to_screen`. -/
def cameraToScreen2 (K : M3) (p : V3) : V2 := ![(K *ᵥ p) 0, (K *ᵥ p) 1]

open Classical in
/-- src/coordinates/point_coordinates.cpp 149-168, `ScreenCoordinate::to_camera_coordinates`. -/
def screenToCamera (K : M3) (s : V3) : Outcome V3 :=
  if s 0 < 0 then .throws
  else if s 1 < 0 then .throws
  else if doubleEqual (s 2) 0 then .throws
  else .ok ![s 2 * screenToCamera2 K ![s 0, s 1] 0, s 2 * screenToCamera2 K ![s 0, s 1] 1, s 2]

open Classical in
/-- src/coordinates/point_coordinates.cpp 200-209, `CameraCoordinate::to_screen_coordinates`.  The
result is `none` when it returns false.  Only a zero depth with a zero numerator makes a NaN; a zero
depth with another numerator gives infinities in the code, which the model reports as `none` too. -/
def cameraToScreen (K : M3) (p : V3) : Option V3 :=
  if p 2 = 0 then none
  else some ![1 / p 2 * cameraToScreen2 K p 0, 1 / p 2 * cameraToScreen2 K p 1, p 2]

open Classical in
/-- src/coordinates/point_coordinates.cpp 170-180, `ScreenCoordinate::is_in_screen_boundaries`. -/
def inScreen (width height : ℕ) (s : V3) : Bool :=
  decide (0 ≤ s 0) && decide (s 0 ≤ width) && decide (0 ≤ s 1) && decide (s 1 ≤ height) &&
    decide (0 < s 2)

/-! ## Spherical coordinates and inverse depth points -/

/-- `atan2(y, x)` of the C library, on reals: the argument of `x + i y`, 0 at the origin. -/
def atan2 (y x : ℝ) : ℝ := Complex.arg ⟨x, y⟩

/-- src/coordinates/basis_changes.hpp, `Spherical`. -/
structure Spherical where
  p : ℝ
  theta : ℝ
  phi : ℝ

/-- src/coordinates/basis_changes.cpp 5-10, `Cartesian::from(Spherical)`. -/
def Spherical.toCartesian (s : Spherical) : V3 :=
  ![s.p * Real.sin s.theta * Real.cos s.phi, s.p * Real.sin s.theta * Real.sin s.phi,
    s.p * Real.cos s.theta]

/-- src/coordinates/basis_changes.cpp 30-33, `Spherical::from(Cartesian)`. -/
def Spherical.ofCartesian (v : V3) : Spherical :=
  { p := norm v
    theta := atan2 (Real.sqrt (v 0 * v 0 + v 1 * v 1)) (v 2)
    phi := atan2 (v 1) (v 0) }

/-- src/coordinates/inverse_depth_coordinates.hpp, the members of `InverseDepthWorldPoint`.  `infinite`
says that the inverse depth is the double +inf, which is what `from_cartesian` computes for a point on
its first observation; `inverseDepth` is then 0, so that the quotients by it are 0 as those by +inf. -/
structure InverseDepth where
  first : V3
  inverseDepth : ℝ
  theta : ℝ
  phi : ℝ
  bearing : V3
  infinite : Bool := false

open Classical in
/-- src/coordinates/inverse_depth_coordinates.cpp 15-31, main constructor. -/
def InverseDepth.make (first : V3) (inverseDepth theta phi : ℝ) : Outcome InverseDepth :=
  if inverseDepth < 0 then .throws
  else if theta < 0 ∨ theta > Real.pi then .throws
  else if phi < -Real.pi ∨ phi > Real.pi then .throws
  else .ok { first := first, inverseDepth := inverseDepth, theta := theta, phi := phi
             bearing := Spherical.toCartesian { p := 1, theta := theta, phi := phi } }

open Classical in
/-- src/coordinates/inverse_depth_coordinates.cpp 70-77, `from_cartesian` (noexcept). -/
def InverseDepth.fromCartesian (point origin : V3) : Outcome InverseDepth :=
  let s := Spherical.ofCartesian (point - origin)
  (InverseDepth.make origin (1 / s.p) s.theta s.phi).noexcept.map fun p =>
    { p with infinite := decide (s.p = 0) }

open Classical in
/-- src/coordinates/inverse_depth_coordinates.cpp 106-110, `to_world_coordinates`, with its assert. -/
def InverseDepth.toWorld (p : InverseDepth) : Outcome V3 :=
  if p.inverseDepth = 0 then (if p.infinite then .ok p.first else .terminate)
  else .ok (p.first + (p.inverseDepth)⁻¹ • p.bearing)

/-- src/coordinates/inverse_depth_coordinates.cpp 41-44, constructor from a camera point. -/
def InverseDepth.ofCamera (observation : V3) (c2w : M4) : Outcome InverseDepth :=
  InverseDepth.fromCartesian (pointToWorld c2w observation) (translation c2w)

/-- src/coordinates/inverse_depth_coordinates.cpp 33-39, constructor from a screen point without
depth: the bearing of the pixel, and half the baseline of parameters.hpp (1/1000) as inverse depth. -/
def InverseDepth.ofScreen (K : M3) (observation : V2) (c2w : M4) : Outcome InverseDepth :=
  let c := screenToCamera2 K observation
  (InverseDepth.ofCamera ![c 0, c 1, 1] c2w).map fun p =>
    { p with inverseDepth := (1 / 1000) / 2, infinite := false }

/-- src/coordinates/inverse_depth_coordinates.cpp 142-147, `get_furthest_estimation`. -/
def InverseDepth.furthest (p : InverseDepth) (std : ℝ) : V3 :=
  p.first + (if p.infinite then 1 / 10 ^ 9 else min (p.inverseDepth - std * 3) (1 / 10 ^ 9))⁻¹ • p.bearing

/-- src/coordinates/inverse_depth_coordinates.cpp 149-154, `get_closest_estimation`. -/
def InverseDepth.closest (p : InverseDepth) (std : ℝ) : V3 :=
  p.first + (if p.infinite then 1 / 10 ^ 9 else min (p.inverseDepth + std * 3) (1 / 10 ^ 9))⁻¹ • p.bearing

/-! ## Bases of planes and polygons -/

/-- src/utils/polygon.cpp 51-68, `select_correct_transform`. -/
def selectTransform (n : V3) : V3 :=
  let distX := |n ⬝ᵥ ![1, 0, 0]|
  let distY := |n ⬝ᵥ ![0, 1, 0]|
  let distZ := |n ⬝ᵥ ![0, 0, 1]|
  let res := min distX (min distY distZ)
  if doubleEqual res distX (1 / 10) then ![1, 0, 0]
  else if doubleEqual res distY (1 / 10) then ![0, 1, 0]
  else if doubleEqual res distZ (1 / 10) then ![0, 0, 1]
  else normalized ![n 2, n 0, n 1]

open Classical in
/-- src/utils/polygon.cpp 74-115, `get_plane_coordinate_system`. -/
def planeBasis (n : V3) : Outcome (V3 × V3) :=
  if !doubleEqual (norm n) 1 then .throws
  else
    let r := selectTransform n
    if !doubleEqual (norm r) 1 then .throws
    else
      let x := normalized (n ⨯₃ r)
      let y := normalized (n ⨯₃ x)
      if !doubleEqual (norm x) 1 then .throws
      else if !doubleEqual (norm y) 1 then .throws
      else if 1 / 100 < |x ⬝ᵥ n| then .throws
      else if 1 / 100 < |y ⬝ᵥ x| then .throws
      else if 1 / 100 < |y ⬝ᵥ n| then .throws
      else .ok (x, y)

open Classical in
/-- The three checks on a pair of axes made in several places (src/utils/polygon.cpp 130-141,
152-163, 244-255; src/coordinates/polygon_coordinates.cpp 57-68). -/
def axesOk (x y : V3) : Bool :=
  doubleEqual (norm x) 1 && doubleEqual (norm y) 1 && decide (|y ⬝ᵥ x| ≤ 1 / 100)

/-- src/utils/polygon.cpp 125-145, `get_projected_plan_coordinates`. -/
def projectOnBasis (p center x y : V3) : Outcome V2 :=
  if axesOk x y then .ok ![x ⬝ᵥ (p - center), y ⬝ᵥ (p - center)] else .throws

/-- src/utils/polygon.cpp 147-166, `get_point_from_plane_coordinates`. -/
def liftFromBasis (c : V2) (center x y : V3) : Outcome V3 :=
  if axesOk x y then .ok (center + c 0 • x + c 1 • y) else .throws

/-- src/utils/polygon.hpp, the members of `Polygon` that place it in space.  The boundary is the list
of its outer ring; holes, the cached area and the repair of invalid rings by boost
(`boost::geometry::correct`) are not modelled. -/
structure Polygon where
  boundary : List V2
  center : V3
  xAxis : V3
  yAxis : V3

/-- A loop that calls a function that may throw on each point of the boundary. -/
def mapOutcome {α β : Type _} (f : α → Outcome β) : List α → Outcome (List β)
  | [] => .ok []
  | a :: l => (f a).bind fun b => (mapOutcome f l).map fun bs => b :: bs

/-- src/utils/polygon.cpp 236-266, constructor from boundary points and axes. -/
def Polygon.make (boundary : List V2) (x y center : V3) : Outcome Polygon :=
  if axesOk x y then .ok { boundary := boundary, center := center, xAxis := x, yAxis := y }
  else .throws

open Classical in
/-- src/utils/polygon.cpp 349-382, `project(nextXAxis, nextYAxis, nextCenter)`.  The second check of
the code repeats the first one (the norm of the x axis). -/
def Polygon.project (P : Polygon) (x y center : V3) : Outcome Polygon :=
  if !doubleEqual (norm x) 1 then .throws
  else if 1 / 100 < |x ⬝ᵥ y| then .throws
  else if isApprox P.center center && isApprox P.xAxis x && isApprox P.yAxis y then .ok P
  else
    (mapOutcome (fun p => (liftFromBasis p P.center P.xAxis P.yAxis).bind fun q =>
      projectOnBasis q center x y) P.boundary).bind fun b => Polygon.make b x y center

/-- src/utils/polygon.cpp 431-451, `transform_boundary`. -/
def Polygon.transformBoundary (P : Polygon) (M : M4) (x y center : V3) : Outcome (List V2) :=
  mapOutcome (fun p => (liftFromBasis p P.center P.xAxis P.yAxis).bind fun q =>
    projectOnBasis (pointToWorld M q) center x y) P.boundary

/-- The matrix whose columns are the two axes and their cross product
(src/coordinates/point_coordinates.cpp 59-65). -/
def axesMatrix (x y : V3) : M3 := Matrix.of fun i j => ![x i, y i, (x ⨯₃ y) i] j

open Classical in
/-- src/coordinates/point_coordinates.cpp 24-71, `get_transformation_matrix` between two systems of
axes.  Eigen's `rotation()` of an affine transform is the orthogonal factor of its linear part; the
model takes the linear part itself, which is the same thing for orthonormal axes. -/
def frameChange (xFrom yFrom centerFrom xTo yTo centerTo : V3) : Outcome M4 :=
  if !axesOk xFrom yFrom then .throws
  else if !axesOk xTo yTo then .throws
  else .ok (transformation (axesMatrix xTo yTo * (axesMatrix xFrom yFrom)⁻¹) (centerTo - centerFrom))

open Classical in
/-- src/utils/polygon.cpp 402-429, `transform(nextXAxis, nextYAxis, nextCenter)`. -/
def Polygon.transform (P : Polygon) (x y center : V3) : Outcome Polygon :=
  if !doubleEqual (norm x) 1 then .throws
  else if 1 / 100 < |x ⬝ᵥ y| then .throws
  else if isApprox P.center center && isApprox P.xAxis x && isApprox P.yAxis y then .ok P
  else
    (frameChange P.xAxis P.yAxis P.center x y center).bind fun M =>
      (P.transformBoundary M x y center).bind fun b => Polygon.make b x y center

/-- src/coordinates/polygon_coordinates.cpp 48-75 `CameraPolygon::to_world_space` and 135-162
`WorldPolygon::to_camera_space`; `toNew` is the change of coordinates of the center (points to world
or points to camera). -/
def Polygon.changeFrame (toNew : V3 → V3) (P : Polygon) (M : M4) : Outcome Polygon :=
  let x := normalized (rotation M *ᵥ P.xAxis)
  let y := normalized (rotation M *ᵥ P.yAxis)
  if !axesOk x y then .throws
  else (P.transformBoundary M x y (toNew P.center)).bind fun b => Polygon.make b x y (toNew P.center)

/-- src/coordinates/polygon_coordinates.cpp 48-75. -/
def Polygon.toWorld (P : Polygon) (c2w : M4) : Outcome Polygon :=
  P.changeFrame (pointToWorld c2w) c2w

/-- src/coordinates/polygon_coordinates.cpp 135-162. -/
def Polygon.toCamera (P : Polygon) (w2c : M4) : Outcome Polygon :=
  P.changeFrame (pointToCamera w2c) w2c

/-- src/utils/polygon.cpp 604-617, `get_unprojected_boundary`. -/
def Polygon.unprojected (P : Polygon) : Outcome (List V3) :=
  mapOutcome (fun p => liftFromBasis p P.center P.xAxis P.yAxis) P.boundary

/-! ## Lines -/

/-- src/utils/line.hpp 26-32, `ILine::get_closest_point_on_line`, with the result of the virtual
`compute_normal`. -/
def closestOnLine {n : ℕ} (start normal point : Fin n → ℝ) : Fin n → ℝ :=
  start + ((point - start) ⬝ᵥ normal) • normal

/-- src/utils/line.hpp 37-40, `distance`. -/
def lineDistance {n : ℕ} (start normal point : Fin n → ℝ) : Fin n → ℝ :=
  point - closestOnLine start normal point

/-- src/utils/line.hpp 93-97, `Segment::compute_normal`. -/
def segmentNormal {n : ℕ} (start stop : Fin n → ℝ) : Fin n → ℝ := normalized (stop - start)

/-- src/utils/line.hpp 142-171, `Line`. -/
structure Line (n : ℕ) where
  start : Fin n → ℝ
  normal : Fin n → ℝ

/-- src/utils/line.hpp 147-151, constructor. -/
def Line.make {n : ℕ} (start normal : Fin n → ℝ) : Line n :=
  { start := start, normal := normalized normal }

/-- src/utils/line.hpp 161, `set_normal`. -/
def Line.setNormal {n : ℕ} (l : Line n) (normal : Fin n → ℝ) : Line n := { l with normal := normal }

open Classical in
/-- src/utils/distance_utils.hpp 35-63, `compute_closest_points`; `none` when it returns false.
`isApproxToConstant(0.0)` compares each entry with 0 up to a relative error, so it holds only for the
zero vector. -/
def closestPoints (p1 d1 p2 d2 : V3) : Option (V3 × V3) :=
  let n := d1 ⨯₃ d2
  if n = 0 then none
  else
    let n1 := d1 ⨯₃ n
    let n2 := d2 ⨯₃ n
    let t1 := ((p2 - p1) ⬝ᵥ n2) / (d1 ⬝ᵥ n2)
    let t2 := ((p1 - p2) ⬝ᵥ n1) / (d2 ⬝ᵥ n1)
    some (p1 + t1 • d1, p2 + t2 • d2)

/-- src/utils/distance_utils.hpp 70-84, `signed_line_distance`. -/
def signedLineDistance (p1 d1 p2 d2 : V3) : V3 :=
  match closestPoints p1 d1 p2 d2 with
  | some (a, b) => a - b
  | none => d1 ⨯₃ (p1 - p2)

/-- src/utils/distance_utils.cpp 6-9, `angle_distance`. -/
def angleDistance (a b : ℝ) : ℝ := atan2 (Real.sin (a - b)) (Real.cos (a - b))

end

end RgbdSlam.Geometry

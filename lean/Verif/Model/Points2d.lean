import Verif.Model.Optimizer

/-
Map points without depth: their segment on the screen, their promotion to 3D points; and the random
variations of the matched features used to estimate the variance of the pose.

Doubles are modelled by the reals.
-/
namespace RgbdSlam.Points2d

open Geometry Covariance Optimizer Matrix

noncomputable section

/-! ## Clamping to the screen -/

open Classical in
/-- src/coordinates/point_coordinates.cpp 113-121, `ScreenCoordinate2D::is_in_screen_boundaries`. -/
def inScreen2 (width height : ℕ) (s : V2) : Bool :=
  decide (0 ≤ s 0) && decide (s 0 ≤ width) && decide (0 ≤ s 1) && decide (s 1 ≤ height)

/-- src/utils/line.cpp 15-72, `clamp_to_screen`; `none` when it returns false.  `crossings` is the result
of `boost::geometry::intersection` of the segment with the screen rectangle
(`get_static_screen_boundary_polygon`), `none` when it returns false. -/
def clampToScreen (crossings : Option (List V2)) (width height : ℕ) (start stop : V2) : Option (V2 × V2) :=
  match crossings with
  | none => none
  | some [] =>
    if !inScreen2 width height start || !inScreen2 width height stop then none else some (start, stop)
  | some [p] =>
    let startPoint := p
    let endPoint := p
    if inScreen2 width height startPoint then some (startPoint, p) else some (p, endPoint)
  | some [p, q] => some (p, q)
  | some _ => none

/-- src/map_management/map_features/map_point2d.cpp 189-200, `MapPoint2D::is_visible`. -/
def visible2d (cross : V2 → V2 → Option (List V2)) (K : M3) (width height : ℕ) (p : InverseDepth)
    (inverseDepthVariance : ℝ) (w2c : M4) : Bool :=
  match inverseScreenSegment K p inverseDepthVariance w2c with
  | some (a, b) => (clampToScreen (cross a b) width height a b).isSome
  | none => false

/-! ## Promotion to a 3D point -/

open Classical in
/-- src/tracking/inverse_depth_with_tracking.cpp 231-244, `compute_linearity_score` (noexcept); `none` is a
NaN: the camera is on the point, or the variance is negative. -/
def linearityScore (p : InverseDepth) (C : Sq 6) (c2w : M4) : Outcome (Option ℝ) :=
  p.toWorld.bind fun cartesian =>
    let hc := cartesian - translation c2w
    let cosAlpha := p.bearing ⬝ᵥ hc / Geometry.norm hc
    let thetad := Real.sqrt (C 3 3) / (p.inverseDepth * p.inverseDepth) / 1000
    let d1 := Geometry.norm hc / 1000
    .ok (if hc = 0 ∨ C 3 3 < 0 then none else some (4 * thetad / d1 * |cosAlpha|))

open Classical in
/-- src/map_management/map_features/map_point2d.cpp 220-241, `MapPoint2D::compute_upgraded`: coordinates and
covariance of the 3D point, `none` when it returns false.  The exceptions are caught. -/
def computeUpgraded (p : InverseDepth) (C : Sq 6) (c2w : M4) : Outcome (Option (V3 × Sq 3)) :=
  (linearityScore p C c2w).bind fun
    | none => .ok none
    | some score =>
      if score < 1 / 10 then
        p.toWorld.bind fun world =>
          match cartesianCovariance p C with
          | .ok R => .ok (some (world, R))
          | .throws => .ok none
          | .exit => .exit
          | .terminate => .terminate
          | .ub => .ub
          | .outOfFuel => .outOfFuel
      else .ok none

/-! ## Random variations -/

/-- src/matches_containers.hpp, `IOptimizationFeature`, with the members of the three features: the
detection, the map feature, the standard deviations and the two ids. -/
structure Matched (D M S : Type) where
  detected : D
  map : M
  deviation : S
  idInMap : ℕ
  idDetected : ℕ

/-- src/map_management/map_features/map_point.cpp 51-59, `PointOptimizationFeature::compute_random_variation`;
`noise` are the numbers drawn by `get_normal_doubles`. -/
def varyPoint (f : Matched V2 V3 V3) (noise : V3) : Matched V2 V3 V3 :=
  { f with map := fun i => f.map i + noise i * f.deviation i }

/-- src/map_management/map_features/map_primitive.cpp 69-80, `PlaneOptimizationFeature::compute_random_variation`. -/
def varyPlane (f : Matched Plane Plane (Fin 4 → ℝ)) (noise : V3) (noiseD : ℝ) :
    Matched Plane Plane (Fin 4 → ℝ) :=
  let normal : V3 := fun i => f.map.normal i + noise i * ![f.deviation 0, f.deviation 1, f.deviation 2] i
  { f with map := Plane.make normal (f.map.d + noiseD * f.deviation 3) }

/-- `std::clamp`. -/
def clamp (x lo hi : ℝ) : ℝ := max lo (min x hi)

/-- src/map_management/map_features/map_point2d.cpp 49-73, `Point2dOptimizationFeature::compute_random_variation`
(noexcept), with the indexes of src/coordinates/inverse_depth_coordinates.hpp (inverse depth 3, theta 4,
phi 5). -/
def varyPoint2d (f : Matched V2 InverseDepth (Fin 6 → ℝ)) (noiseTheta noisePhi : ℝ) :
    Outcome (Matched V2 InverseDepth (Fin 6 → ℝ)) :=
  ((InverseDepth.make f.map.first f.map.inverseDepth
      (clamp (f.map.theta + noiseTheta * f.deviation 4) 0 Real.pi)
      (clamp (f.map.phi + noisePhi * f.deviation 5) (-Real.pi) Real.pi)).map fun p =>
        { f with map := { p with infinite := f.map.infinite } }).noexcept

end

end RgbdSlam.Points2d

import Verif.Model.Points2d
import Verif.Model.System
/-
The constructors of the map features and their update with a matched detection, on the geometry of
Model/Geometry.lean and Model/Covariance.lean; and the feature types of the maps made of them.

Doubles are modelled by the reals, pixel coordinates and depths of keypoints are rationals.
-/
namespace RgbdSlam.Updates

open Geometry Covariance Points2d Matrix
open Keypoints (Handler Detected Kp Pt)
open Map (depthValid PointGeo PlaneOps)

noncomputable section

/-- What an update sees of the camera: the intrinsics (src/parameters.cpp), the camera to world matrix and
the covariance of the position. -/
structure Camera where
  fx : ℝ
  fy : ℝ
  cx : ℝ
  cy : ℝ
  c2w : M4
  pose : Sq 3

/-- src/parameters.cpp, `get_camera_1_intrinsics`. -/
def Camera.K (c : Camera) : M3 := intrinsics c.fx c.fy c.cx c.cy

/-- The `ScreenCoordinate` of a keypoint. -/
def screenPoint (k : Kp) : V3 := ![(k.pt.x : ℝ), (k.pt.y : ℝ), (k.depth : ℝ)]

/-- The `ScreenCoordinate2D` of a keypoint, `get_2D`. -/
def screenPoint2 (k : Kp) : V2 := ![(k.pt.x : ℝ), (k.pt.y : ℝ)]

/-- src/coordinates/point_coordinates.cpp 145-148, `ScreenCoordinate::to_world_coordinates`. -/
def worldPoint (c : Camera) (k : Kp) : Outcome V3 := (screenToCamera c.K (screenPoint k)).map (pointToWorld c.c2w)

/-- src/utils/covariances.cpp 68-78, `get_world_point_covariance` of a screen point (noexcept), with the
depth variance of src/coordinates/point_coordinates.cpp 128. -/
def worldPointCovariance (c : Camera) (k : Kp) : Outcome (Sq 3) :=
  ((screenCovariance (if depthValid k.depth then depthQuantization k.depth else 1000)).map fun S =>
    movedPointCovariance (cameraPointCovariance c.fx c.fy c.cx c.cy (screenPoint k) S) c.c2w c.pose).noexcept

/-! ## 3D points -/

variable {Desc : Type}

/-- `tracking::Point` with its descriptor (`none`: empty), src/tracking/point_with_tracking.hpp 16-46. -/
structure PointBody (Desc : Type) where
  tracked : TrackedPoint
  desc : Option Desc

/-- src/tracking/point_with_tracking.cpp 16-30, constructor; `none` when it throws.  The test for NaN has no
counterpart on reals. -/
def makePoint (x : V3) (C : Sq 3) (desc : Option Desc) : Option (PointBody Desc) :=
  if desc.isNone then none
  else if !isValid C then none
  else some ⟨⟨x, C, false⟩, desc⟩

/-- src/map_management/map_features/map_point.cpp 251-257, constructor of `StagedMapPoint`; `none` when it
throws.  (`get_world_point_covariance` never ends the program: `worldPointCovariance_ok`.) -/
def newPoint (c : Camera) (d : Detected Desc) : Option (PointBody Desc) :=
  match worldPoint c d.kp, worldPointCovariance c d.kp with
  | .ok x, .ok C => makePoint x C d.desc
  | _, _ => none

/-- map_point.cpp 280-288, constructor of `LocalMapPoint` from a candidate. -/
def copyPoint (b : PointBody Desc) : Option (PointBody Desc) :=
  makePoint b.tracked.coordinates b.tracked.covariance b.desc

/-- "If a new descriptor is available, update it", map_point.cpp 213-215 and 233-235,
inverse_depth_with_tracking.cpp 157-158. -/
def newest (detected old : Option Desc) : Option Desc :=
  match detected with
  | some d => some d
  | none => old

/-- map_point.cpp 207-217 and 227-237: track, then the descriptor. -/
def PointBody.merge (b : PointBody Desc) (pinv : Sq 3 → Sq 3) (x : V3) (C : Sq 3) (desc : Option Desc) :
    Outcome (PointBody Desc × Bool) :=
  (b.tracked.track pinv x C).noexcept.map fun r =>
    open Classical in
    if r.1 < 0 then ({ b with tracked := r.2 }, false) else (⟨r.2, newest desc b.desc⟩, true)

/-! ## 2D points -/

/-- `PointInverseDepth` with its descriptor, src/tracking/inverse_depth_with_tracking.hpp. -/
structure InverseBody (Desc : Type) where
  tracked : TrackedInverse
  desc : Option Desc

/-- src/tracking/inverse_depth_with_tracking.cpp 23-50, constructor from a screen point, with the baselines
of src/parameters.hpp 64-65 (1/1000 per millimetre and half a degree). -/
def newInverse (c : Camera) (s : V2) (desc : Option Desc) : Outcome (InverseBody Desc) :=
  (InverseDepth.ofScreen c.K s c.c2w).bind fun p =>
    if !isValid c.pose then .throws
    else
      let C := initialInverseCovariance c.pose ((1 / 1000 / 4) ^ 2) ((1 / 2 * (Real.pi / 180)) ^ 2)
      if !isValid C then .throws else .ok ⟨⟨p, C, false⟩, desc⟩

/-- src/map_management/map_features/map_point2d.cpp 271-276, constructor of `StagedMapPoint2D`; `none` when
it throws.  (It never ends the program: `ofScreen_ok`.) -/
def newPoint2d (c : Camera) (d : Detected Desc) : Option (InverseBody Desc) :=
  match newInverse c (screenPoint2 d.kp) d.desc with
  | .ok b => some b
  | _ => none

/-- inverse_depth_with_tracking.cpp 52-59, copy constructor, used by map_point2d.cpp 298-305. -/
def copyPoint2d (b : InverseBody Desc) : Option (InverseBody Desc) :=
  if !isValid b.tracked.covariance then none
  else some { b with tracked := { b.tracked with moving := false } }

/-- The world point and covariance of an observation without depth: map_point.cpp 222-227 and
inverse_depth_with_tracking.cpp 69-73. -/
def observe (c : Camera) (s : V2) : Outcome (V3 × Sq 3) :=
  (newInverse (Desc := Unit) c s none).bind fun o =>
    o.tracked.coordinates.toWorld.bind fun x =>
      (cartesianCovariance o.tracked.coordinates o.tracked.covariance).map fun C => (x, C)

/-- map_point.cpp 188-240, `MapPoint::update_with_match` after the test of the match indexes (noexcept). -/
def updatePoint (pinv : Sq 3 → Sq 3) (c : Camera) (d : Detected Desc) (b : PointBody Desc) :
    Outcome (PointBody Desc × Bool) :=
  (if depthValid d.kp.depth then
    (worldPoint c d.kp).bind fun x =>
      (worldPointCovariance c d.kp).bind fun C => b.merge pinv x C d.desc
  else (observe c (screenPoint2 d.kp)).bind fun o => b.merge pinv o.1 o.2 d.desc).noexcept

/-- inverse_depth_with_tracking.cpp 112-167, `update_with_cartesian`, with the descriptor. -/
def InverseBody.merge (b : InverseBody Desc) (pinv : Sq 3 → Sq 3) (x : V3) (C : Sq 3) (desc : Option Desc) :
    Outcome (InverseBody Desc × Bool) :=
  (b.tracked.updateWithCartesian pinv x C).map fun r =>
    (⟨r.2, if r.1 then newest desc b.desc else b.desc⟩, r.1)

/-- `catch (const std::exception& ex) { ...; return false; }`, nothing having been written before. -/
def caught {α : Type} (b : α) : Outcome (α × Bool) → Outcome (α × Bool)
  | .throws => .ok (b, false)
  | r => r

/-- map_point2d.cpp 243-260, `MapPoint2D::update_with_match` after the test of the match indexes (noexcept),
with the two functions `track` of inverse_depth_with_tracking.cpp 61-110. -/
def updatePoint2d (pinv : Sq 3 → Sq 3) (c : Camera) (d : Detected Desc) (b : InverseBody Desc) :
    Outcome (InverseBody Desc × Bool) :=
  (caught b (if depthValid d.kp.depth then
    (worldPoint c d.kp).bind fun x =>
      (worldPointCovariance c d.kp).bind fun C => b.merge pinv x C d.desc
  else (observe c (screenPoint2 d.kp)).bind fun o => b.merge pinv o.1 o.2 d.desc)).noexcept

/-! ## Planes -/

/-- What the map reads of a detected plane, src/features/primitives/shape_primitives.hpp 86-125. -/
structure DetectedPlane where
  plane : Plane
  cloud : Sq 3
  boundary : Polygon

/-- src/map_management/map_features/map_primitive.cpp 217-238 and 268-278: the covariance of a detected plane
in world space.  (The tests of 223 and 234 repeat those made by the two functions.) -/
def detectedPlaneCovariance (c : Camera) (d : DetectedPlane) : Outcome (Sq 4) :=
  (planeCovariance d.plane d.cloud).bind fun K =>
    worldPlaneCovariance d.plane c.c2w (planeCameraToWorld c.c2w) K c.pose

/-- map_primitive.cpp 204-251, `MapPlane::update_with_match` after the test of the match indexes (noexcept).
`merge c2w detected own` is `Polygon::merge` (src/utils/polygon.cpp 325-336) of the boundary with the
detected one in world space, whose result comes from boost. -/
def updatePlane (pinv : Sq 4 → Sq 4) (merge : M4 → Polygon → Polygon → Outcome Polygon) (c : Camera)
    (d : DetectedPlane) (p : TrackedPlane) : Outcome (TrackedPlane × Bool) :=
  caught p ((detectedPlaneCovariance c d).bind fun W =>
    (p.track pinv (merge c.c2w d.boundary) (d.plane.transform (planeCameraToWorld c.c2w)) W).map fun r =>
      (r.2, r.1.isSome))

/-- map_primitive.cpp 262-284, constructor of `StagedMapPlane`. -/
def newPlane (c : Camera) (d : DetectedPlane) : Outcome TrackedPlane :=
  (detectedPlaneCovariance c d).bind fun W =>
    (d.boundary.toWorld c.c2w).bind fun B =>
      let P := d.plane.transform (planeCameraToWorld c.c2w)
      if !doubleEqual (Geometry.norm P.normal) 1 then .throws else .ok ⟨P, W, B⟩

/-- map_primitive.cpp 294-314, constructor of `LocalMapPlane`. -/
def copyPlane (p : TrackedPlane) : Option TrackedPlane :=
  if !isValid p.covariance then none
  else if !doubleEqual (Geometry.norm p.plane.normal) 1 then none
  else some p

/-! ## The feature types -/

/-- The content of a map feature of any type; `S` is the content of a plane. -/
inductive Body (Desc S : Type) where
  | point (b : PointBody Desc)
  | inverse (b : InverseBody Desc)
  | plane (s : S)

variable {S : Type}

/-- The parts of the point types that only decide which detections are matched: projections, visibility,
distances between descriptors. -/
structure Sight (Desc S : Type) where
  isVisible : Camera → Body Desc S → Bool
  project : Camera → Body Desc S → Option Pt
  distance : Desc → Desc → Nat

/-- `IMapFeature::is_moving` of the points (map_point.hpp, map_point2d.hpp). -/
def moving : Body Desc S → Bool
  | .point b => b.tracked.moving
  | .inverse b => b.tracked.moving
  | .plane _ => false

/-- The descriptor of a point; the default is that of a feature without one, which has no business here. -/
def descriptor [Inhabited Desc] : Body Desc S → Desc
  | .point b => b.desc.getD default
  | .inverse b => b.desc.getD default
  | .plane _ => default

/-- `MapPoint`. -/
def geo1 [Inhabited Desc] (sight : Sight Desc S) (pinv : Sq 3 → Sq 3) : PointGeo (Body Desc S) Desc Camera where
  isMoving := moving
  isVisible := sight.isVisible
  project := sight.project
  descriptor := descriptor
  distance := sight.distance
  update c d b := match b with
    | .point b => (updatePoint pinv c d b).map fun r => (.point r.1, r.2)
    | b => .ok (b, false)
  build c d := (newPoint c d).map .point
  copy b := match b with
    | .point b => (copyPoint b).map .point
    | _ => none
  upgrade _ _ := none
  buildUpgraded b := match b with
    | .point b => (copyPoint b).map .point
    | _ => none
  covValid c := isValid c.pose

/-- `MapPoint2D`.  Its upgrade (map_point2d.cpp 220-241) gives the coordinates, the covariance and the
descriptor of a 3D point.  (It never ends the program: `computeUpgraded_ok`.) -/
def geo2 [Inhabited Desc] (sight : Sight Desc S) (pinv : Sq 3 → Sq 3) : PointGeo (Body Desc S) Desc Camera where
  isMoving := moving
  isVisible := sight.isVisible
  project := sight.project
  descriptor := descriptor
  distance := sight.distance
  update c d b := match b with
    | .inverse b => (updatePoint2d pinv c d b).map fun r => (.inverse r.1, r.2)
    | b => .ok (b, false)
  build c d := (newPoint2d c d).map .inverse
  copy b := match b with
    | .inverse b => (copyPoint2d b).map .inverse
    | _ => none
  upgrade c b := match b with
    | .inverse b => match computeUpgraded b.tracked.coordinates b.tracked.covariance c.c2w with
      | .ok (some (x, C)) => some (.point ⟨⟨x, C, false⟩, b.desc⟩)
      | _ => none
    | _ => none
  buildUpgraded _ := none
  covValid c := isValid c.pose

end

end RgbdSlam.Updates

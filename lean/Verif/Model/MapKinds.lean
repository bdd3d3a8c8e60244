import Verif.Model.FeatureMap
/-
The three feature types of the program (src/map_management/map_features/): what they do with the
match counters, with the detected features and with upgrades.  Geometry, descriptors and the Kalman
updates are parameters.
-/
namespace RgbdSlam.Map

/-- `parameters::matching::matchSearchRadius_px`. -/
def matchSearchRadius : Nat := 30

/-- `StagedMapPoint::get_confidence`, map_point.cpp:268-274, and `StagedMapPoint2D::get_confidence`,
map_point2d.cpp:286-292 (`pointStagedAgeConfidence` = 3; exact arithmetic: in doubles the values at
1, 2, 3 matches are 0.33.., 0.66.. and 1.0). -/
def confidence (succ : Int) : Rat := max (-1) (min ((succ : Rat) / 3) 1)

/-- `pointMinimumConfidenceForMap`. -/
def minimumConfidence : Rat := 9 / 10

/-- Geometry of points: parameters of the model of `MapPoint` and `MapPoint2D`. -/
structure PointOps (P D Env : Type) where
  isMoving : P → Bool
  isVisible : Env → P → Bool
  /-- `Keypoint_Handler::get_tracking_match_index(id)` -/
  trackIndex : Env → List D → Nat → Option Nat
  /-- does the projection to the screen succeed -/
  onScreen : Env → P → Bool
  /-- `Keypoint_Handler::get_match_indexes` with a search radius -/
  window : Env → List D → P → List Bool → Nat → List Nat
  update : Env → D → P → Outcome (P × Bool)
  hasDescriptor : D → Bool
  depthValid : D → Bool
  build : Env → D → Option P
  copy : P → Option P
  upgrade : Env → P → Option P
  buildUpgraded : P → Option P
  covValid : Env → Bool

variable {P D Env : Type}

/-- `MapPoint::find_matches`, map_point.cpp:71-114. -/
def pointFind (o : PointOps P D Env) (env : Env) (det : List D) (f : Feat P) (flags : List Bool)
    (toMatches advanced : Bool) : List Nat × List Nat :=
  let radius := if advanced then matchSearchRadius * 2 else matchSearchRadius
  let idx := match o.trackIndex env det f.id with
    | some i => [i]
    | none => if o.onScreen env f.body then o.window env det f.body flags radius else []
  (idx, if toMatches then idx else [])

/-- `MapPoint2D::find_matches`, map_point2d.cpp:87-141, with the flag test of
`get_tracking_match_index(id, flags)` (keypoint_handler.cpp:209-232).  Line 118 returns before
anything is pushed to `matches`; after it `matchIndexRes` is empty. -/
def point2dFind (o : PointOps P D Env) (env : Env) (det : List D) (f : Feat P) (flags : List Bool)
    (toMatches advanced : Bool) : List Nat × List Nat :=
  let radius := if advanced then matchSearchRadius * 2 else matchSearchRadius
  let tracked := match o.trackIndex env det f.id with
    | some i => if flags[i]? = some false then some i else none
    | none => none
  match tracked with
  | none => (if o.onScreen env f.body then o.window env det f.body flags radius else [], [])
  | some _ =>
    let idx : List Nat := []
    (idx, if toMatches then idx else [])

/-- `update_with_match`: refuses a feature without match (map_point.cpp:192-196,
map_point2d.cpp:247-251, map_primitive.cpp:208-212), then tracks. -/
def guardedUpdate (u : Env → D → P → Outcome (P × Bool)) (env : Env) (d : D) (f : Feat P) :
    Outcome (P × Bool) :=
  if f.matched.isEmpty then .ok (f.body, false) else u env d f.body

/-- The 3D point map: `MapPoint`, `StagedMapPoint` (map_point.cpp:251-274), `LocalMapPoint` (280-306),
`localPointMap` (map_point.hpp:156-192); `minimumPointForOptimization` = 5,
`pointUnmatchedCountToLoose` = 10. -/
def pointKind (o : PointOps P D Env) : Kind P D Env where
  type := .point
  minFeatures := 5
  isMoving := o.isMoving
  isVisible := o.isVisible
  findMatches := pointFind o
  updateWith := guardedUpdate o.update
  shouldRemove f := decide (confidence f.succ ≤ 0)
  shouldAdd f := decide (minimumConfidence < confidence f.succ)
  isLost f := decide (10 < f.failed)
  canAdd d := o.hasDescriptor d && o.depthValid d
  build := o.build
  idOnThrow := false
  promote f := o.copy f.body
  upgrade _ _ := none
  accept u := match o.buildUpgraded u.body with
    | some b => .add b
    | none => .throws
  covValid := o.covValid

/-- The 2D (inverse depth) point map: `MapPoint2D`, `StagedMapPoint2D` (map_point2d.cpp:271-292),
`LocalMapPoint2D` (298-310), `localPoint2DMap` (map_point2d.hpp:148-186). -/
def point2dKind (o : PointOps P D Env) : Kind P D Env where
  type := .point2d
  minFeatures := 5
  isMoving := o.isMoving
  isVisible := o.isVisible
  findMatches := point2dFind o
  updateWith := guardedUpdate o.update
  shouldRemove f := decide (confidence f.succ ≤ 0)
  shouldAdd f := decide (minimumConfidence < confidence f.succ)
  isLost f := decide (10 < f.failed)
  canAdd d := o.hasDescriptor d && !o.depthValid d
  build := o.build
  idOnThrow := false
  promote f := o.copy f.body
  upgrade env f := (o.upgrade env f.body).map fun b => ⟨.point, b, f.matched⟩
  accept _ := .refuse
  covValid := o.covValid

/-- Geometry of planes: parameters of the model of `MapPlane`. -/
structure PlaneOps (P D Env : Type) where
  isVisible : Env → P → Bool
  /-- area of the projected boundary polygon -/
  projectedArea : Env → P → Rat
  /-- `is_distance_similar` and `is_normal_similar` -/
  similar : Env → P → D → Bool
  /-- `inter_area` with the projected polygon -/
  interArea : Env → P → D → Rat
  detectedArea : D → Rat
  update : Env → D → P → Outcome (P × Bool)
  build : Env → D → Option P
  copy : P → Option P
  covValid : Env → Bool

/-- The search loop of `MapPlane::find_matches`, map_primitive.cpp:116-144, from index `i`: selected
index (-1 for none) and greatest overlap so far.  The division by a zero area gives +inf, hence true. -/
def planeSearch (o : PlaneOps P D Env) (env : Env) (body : P) (flags : List Bool) (threshold : Rat) :
    Nat → List D → Int → Rat → Int
  | _, [], sel, _ => sel
  | i, d :: ds, sel, best =>
    if flags[i]? = some true then planeSearch o env body flags threshold (i + 1) ds sel best
    else if !o.similar env body d then planeSearch o env body flags threshold (i + 1) ds sel best
    else
      let inter := o.interArea env body d
      if best < inter ∧ (o.detectedArea d = 0 ∨ threshold ≤ inter / o.detectedArea d) then
        planeSearch o env body flags threshold (i + 1) ds i inter
      else planeSearch o env body flags threshold (i + 1) ds sel best

/-- `minimumPlaneOverlapToConsiderMatch`. -/
def minimumPlaneOverlap : Rat := 2 / 5

/-- `MapPlane::find_matches`, map_primitive.cpp:91-161 (the test of line 146 is `selectedIndex <= 0`). -/
def planeFind (o : PlaneOps P D Env) (env : Env) (det : List D) (f : Feat P) (flags : List Bool)
    (toMatches advanced : Bool) : List Nat × List Nat :=
  let threshold := if advanced then minimumPlaneOverlap / 2 else minimumPlaneOverlap
  if o.projectedArea env f.body ≤ 0 then ([], [])
  else
    let sel := planeSearch o env f.body flags threshold 0 det (-1) 0
    if sel ≤ 0 then ([], [])
    else ([sel.toNat], if toMatches then [sel.toNat] else [])

/-- The plane map: `MapPlane`, `StagedMapPlane` (map_primitive.cpp:262-288), `LocalMapPlane`
(294-319), `localPlaneMap` (map_primitive.hpp:138-175); `minimumPlanesForOptimization` = 3,
`planeUnmatchedCountToLoose` = 10; `is_moving` is false (map_primitive.hpp:94-98). -/
def planeKind (o : PlaneOps P D Env) : Kind P D Env where
  type := .plane
  minFeatures := 3
  isMoving _ := false
  isVisible := o.isVisible
  findMatches := planeFind o
  updateWith := guardedUpdate o.update
  shouldRemove f := decide (2 ≤ f.failed)
  shouldAdd f := decide (4 ≤ f.succ)
  isLost f := decide (10 ≤ f.failed)
  canAdd _ := true
  build := o.build
  idOnThrow := true
  promote f := o.copy f.body
  upgrade _ _ := none
  accept _ := .refuse
  covValid := o.covValid

end RgbdSlam.Map

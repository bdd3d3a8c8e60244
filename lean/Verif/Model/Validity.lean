import Verif.Model.Updates
import Verif.Model.Points2d
import Verif.Model.Ransac
/-
The features handed to the pose optimisation and the test they pass before it starts.

A standard deviation is `none` when it is not a number: the square root of a negative variance.  The tests
for NaN of coordinates have no counterpart on reals.
-/
namespace RgbdSlam.Updates

open Geometry Covariance Optimizer Keypoints Points2d

noncomputable section

open Classical

/-- `_covariance.diagonal().cwiseSqrt()`, src/map_management/map_features/map_point.cpp 108 and
map_primitive.cpp 154. -/
def deviations {n : ℕ} (C : Sq n) : Fin n → Option ℝ := fun i =>
  if C i i < 0 then none else some (Real.sqrt (C i i))

/-- The features of src/matches_containers.hpp that are added to the matches: those of 3D points and of
planes (`MapPoint2D::find_matches` adds nothing, map_point2d.cpp 100-139). -/
inductive MatchFeature where
  | point (f : Matched V2 V3 (Fin 3 → Option ℝ))
  | plane (f : Matched Plane Plane (Fin 4 → Option ℝ))

/-- The feature added by `MapPoint::find_matches`, map_point.cpp 104-112, for the keypoint number `i`. -/
def pointMatch {Desc : Type} (k : Kp) (i id : ℕ) (b : PointBody Desc) : MatchFeature :=
  .point ⟨screenPoint2 k, b.tracked.coordinates, deviations b.tracked.covariance, id, i⟩

/-- The feature added by `MapPlane::find_matches`, map_primitive.cpp 149-157, for the detected plane number
`i`. -/
def planeMatch (d : DetectedPlane) (i id : ℕ) (p : TrackedPlane) : MatchFeature :=
  .plane ⟨d.plane, p.plane, deviations p.covariance, id, i⟩

/-- The members `_idInMap` and `_detectedFeatureId` and the type of a match, src/matches_containers.hpp
122-180, by which a refused match is taken back (feature_map.hpp 483-499). -/
def MatchFeature.key : MatchFeature → Map.Match
  | .point f => ⟨.point, f.idInMap, f.idDetected⟩
  | .plane f => ⟨.plane, f.idInMap, f.idDetected⟩

/-- The members of a match that `get_distance` and `is_inlier` read: map_point.cpp 34-47, map_primitive.cpp
34-65. -/
def MatchFeature.toMatch : MatchFeature → Optimizer.Match
  | .point f => .point f.detected f.map
  | .plane f => .plane f.detected f.map

/-- `(not _standardDev.hasNaN()) and (_standardDev.array() >= 0).all()`. -/
def deviationsValid {n : ℕ} (s : Fin n → Option ℝ) : Bool :=
  decide (∀ i, s i ≠ none) && decide (∀ i, ∀ x, s i = some x → 0 ≤ x)

/-- `is_valid`, map_point.cpp 59-63 and map_primitive.cpp 79-83. -/
def MatchFeature.isValid : MatchFeature → Bool
  | .point f => deviationsValid f.deviation
  | .plane f => deviationsValid f.deviation

end

end RgbdSlam.Updates

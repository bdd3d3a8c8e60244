import Verif.Model.Updates
import Verif.Model.MapKinds
import Verif.Model.Refine

/-! The operations of the map of planes, with the parameters and the covariances of the planes. -/

namespace RgbdSlam.Updates

open Geometry Covariance Matrix

noncomputable section

/-- What the search reads of the outlines of the planes; it comes from boost (`get_area`, `inter_area`) and from the size of the image
(`is_visible`, src/map_management/map_features/map_primitive.cpp).  The areas are values of type double. -/
structure Outlines where
  visible : Camera → Polygon → Bool
  /-- map_primitive.cpp 103-104: the area of the outline of the map plane in camera space -/
  area : Camera → Polygon → Rat
  /-- map_primitive.cpp 133-135: the shared area of the outline of the map plane and the detected one -/
  overlap : Camera → Polygon → Polygon → Rat
  /-- map_primitive.cpp 134: the area of the detected outline -/
  detected : Polygon → Rat

/-- `MapPlane`, `StagedMapPlane` and `LocalMapPlane`: map_primitive.cpp 91-161 (the similarity tests, 98-101 and 126-127), 204-251
(update), 262-284 (new candidate), 294-314 (entry in the map).  The matrix of the search is the inverse of the camera to world
matrix. -/
def planeOps (pinv : Sq 4 → Sq 4) (merge : M4 → Polygon → Polygon → Outcome Polygon) (out : Outlines) :
    Map.PlaneOps TrackedPlane DetectedPlane Camera where
  isVisible c p := out.visible c p.boundary
  projectedArea c p := out.area c p.boundary
  similar c p d :=
    let projected := p.plane.transform (planeWorldToCamera (worldToCameraOf c.c2w))
    Refine.distanceSimilar d.plane projected && Refine.normalSimilar d.plane projected
  interArea c p d := out.overlap c p.boundary d.boundary
  detectedArea d := out.detected d.boundary
  update c d p := updatePlane pinv merge c d p
  build c d := match newPlane c d with
    | .ok p => some p
    | _ => none
  copy := copyPlane
  covValid c := isValid c.pose

end

end RgbdSlam.Updates

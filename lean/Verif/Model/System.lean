import Verif.Model.LocalMap
import Verif.Model.Slam
/-
The frame loop (`Model/Slam.lean`) running on the local map (`Model/LocalMap.lean`).
-/
namespace RgbdSlam.Map

variable {P D Env : Type}

/-- The maps of the program, src/rgbd_slam.hpp:105-107. -/
def programKinds (o2 o1 : PointOps P D Env) (op : PlaneOps P D Env) : FType → Kind P D Env
  | .point2d => point2dKind o2
  | .point => pointKind o1
  | .plane => planeKind op

/-- Step budget for one update: one step per candidate.  It suffices unless building a map feature throws,
and then no budget does (`C17_update_terminates_partial`, `C17_update_may_loop_false`). -/
def World.budget (w : World P) : Nat :=
  (order.map fun t => (w.maps t).staged.length).foldl max 0

/-- A call on a map that a former call has not left (the program has crashed or hangs). -/
def alive {α β : Type} (L : Outcome α) (dead : β) (f : α → Outcome α × β) : Outcome α × β :=
  match L with
  | .ok w => f w
  | bad => (bad, dead)

/-- The local map as used by `RGBD_SLAM::compute_new_pose`, src/rgbd_slam.cpp:187-237.  `dets` gives
the detections of a frame by type, `env` what the maps see of a pose and the frame, `cov` the test of
the position covariance, `lt` the order of the match list. -/
def localMapOps {Pose Det : Type} (k : FType → Kind P D Env) (cov : Env → Bool) (lt : Match → Match → Bool)
    (env : Pose → Det → Env) (dets : Det → FType → List D) :
    Slam.MapOps (Outcome (World P)) Det Pose Match where
  find pose det L := alive L [] fun w =>
    let (w', ms) := w.find k lt (env pose det) (dets det) order []
    (.ok w', ms)
  update pose det outliers L := alive L false fun w =>
    let r := w.update k cov w.budget (env pose det) (dets det) outliers
    (r.map (·.1), r.holds (·.2))
  updateNoPose L := (alive L () fun w => (.ok (w.noPose k order), ())).1
  addAll pose det L :=
    (alive L () fun w => ((w.addAll k cov (env pose det) (dets det)).map (·.1), ())).1

/-! ### Keypoints and planes together -/

open Keypoints (Handler Detected)

variable {Desc Cam Shape : Type}

/-- The point maps only see keypoints: `DetectedFeatureContainer`, src/matches_containers.hpp. -/
def withShapes (o : PointOps P (Detected Desc) (Cam × Handler Desc)) :
    PointOps P (Detected Desc ⊕ Shape) (Cam × Handler Desc) where
  isMoving := o.isMoving
  isVisible := o.isVisible
  trackIndex env _ := o.trackIndex env []
  onScreen := o.onScreen
  window env _ := o.window env []
  update env d b := match d with
    | .inl d => o.update env d b
    | .inr _ => .ok (b, false)
  hasDescriptor d := match d with
    | .inl d => o.hasDescriptor d
    | .inr _ => false
  depthValid d := match d with
    | .inl d => o.depthValid d
    | .inr _ => false
  build env d := match d with
    | .inl d => o.build env d
    | .inr _ => none
  copy := o.copy
  upgrade := o.upgrade
  buildUpgraded := o.buildUpgraded
  covValid := o.covValid

/-- The detections of a frame: the keypoint handler and the planes.  Both point maps read the same
keypoints (src/rgbd_slam.cpp:315, map_point.hpp and map_point2d.hpp: get_detected_feature). -/
def frameDets (d : Handler Desc × List Shape) : FType → List (Detected Desc ⊕ Shape)
  | .point2d => (Keypoints.detections d.1).map .inl
  | .point => (Keypoints.detections d.1).map .inl
  | .plane => d.2.map .inr

end RgbdSlam.Map

import Verif.Model.MapKinds
import Verif.Model.Keypoints
/-
The point maps of the program on top of the keypoint handler: the detections of a frame are the content
of a `Keypoint_Handler`, matches are found by its two search functions.
-/
namespace RgbdSlam.Map

open Keypoints (Handler Detected Pt)

/-- What remains a parameter: projection, descriptors, Kalman update. -/
structure PointGeo (P Desc Cam : Type) where
  isMoving : P → Bool
  isVisible : Cam → P → Bool
  /-- `to_screen_coordinates`; `none` if it fails -/
  project : Cam → P → Option Pt
  descriptor : P → Desc
  /-- Hamming distance of descriptors -/
  distance : Desc → Desc → Nat
  update : Cam → Detected Desc → P → Outcome (P × Bool)
  build : Cam → Detected Desc → Option P
  copy : P → Option P
  upgrade : Cam → P → Option P
  buildUpgraded : P → Option P
  covValid : Cam → Bool

variable {P Desc Cam : Type}

/-- `is_depth_valid`, src/coordinates/point_coordinates.cpp (`MIN_DEPTH_DISTANCE` 40, `MAX_DEPTH_DISTANCE`
6000). -/
def depthValid (z : Rat) : Bool := decide (40 < z ∧ z ≤ 6000)

/-- The keypoint handler as matching back end: map_point.cpp:71-114, keypoint_handler.cpp:191-282.  The
environment is the camera and the handler of the frame.  A search that would leave the grid is undefined
behaviour in the program (`C49_portrait_overrun_false`); here it finds nothing. -/
def handlerOps (g : PointGeo P Desc Cam) : PointOps P (Detected Desc) (Cam × Handler Desc) where
  isMoving := g.isMoving
  isVisible env := g.isVisible env.1
  trackIndex env _ id := Keypoints.trackIndex env.2 id
  onScreen env b := (g.project env.1 b).isSome
  window env _ b flags radius :=
    match g.project env.1 b with
    | none => []
    | some p =>
      match Keypoints.matchIndexes g.distance env.2 p (g.descriptor b) flags radius with
      | .ok l => l
      | _ => []
  update env := g.update env.1
  hasDescriptor d := d.desc.isSome
  depthValid d := depthValid d.kp.depth
  build env := g.build env.1
  copy := g.copy
  upgrade env := g.upgrade env.1
  buildUpgraded := g.buildUpgraded
  covValid env := g.covValid env.1

end RgbdSlam.Map

import Verif.Model.Outcome
/-
Model of the frame loop of `RGBD_SLAM` (src/rgbd_slam.cpp, src/rgbd_slam.hpp).

The detectors, the pose optimiser and the local map are parameters.  Poses are an arbitrary type
with two validity tests (validity of the 6x6 pose covariance and of its 3x3 position block).
Debug images, logging, timing and the motion model (its prediction is disabled by `#if 0`,
src/rgbd_slam.cpp:176-180) are left out.
-/
namespace RgbdSlam.Slam

/-- `parameters::detection::keypointRefreshFrequency` (src/parameters.hpp). -/
def keypointRefreshFrequency : Nat := 5

/-- Values of `uint` (`_failedTrackingCount`, src/rgbd_slam.hpp:115) are reduced modulo this. -/
def uintSize : Nat := 2 ^ 32

/-- The operations of `Local_Map` used by the frame loop (src/map_management/local_map.hpp):
`find_feature_matches` (78-100), `update` (110-162), `update_no_pose` (167-173) and
`add_all_features_to_map` (181-199).  `update` returns the map left behind and whether it threw. -/
structure MapOps (L Det Pose Match : Type) where
  find : Pose → Det → L → L × List Match
  update : Pose → Det → List Match → L → L × Bool
  updateNoPose : L → L
  addAll : Pose → Det → L → L

/-- The two covariance tests used on a pose: `is_covariance_valid(get_pose_variance())`
(src/rgbd_slam.cpp:167) and `is_covariance_valid(get_position_variance())` (232-233). -/
structure PoseOps (Pose : Type) where
  covValid : Pose → Bool
  posCovValid : Pose → Bool

/-- What a frame brings: the detectors' answer (it may look at the map, the predicted pose and the
`shouldRecomputeKeypoints` flag, src/rgbd_slam.cpp:261-316) and the answer of
`Pose_Optimization::compute_optimized_pose` (pose and outliers, or failure; 198-199). -/
structure Frame (L Det Pose Match : Type) where
  detect : L → Pose → Bool → Det
  optimize : Pose → List Match → Option (Pose × List Match)

/-- Members of `RGBD_SLAM` (src/rgbd_slam.hpp:95-121) that the frame loop reads and writes. -/
structure State (L Pose : Type) where
  currentPose : Pose
  isTrackingLost : Bool
  failedTrackingCount : Nat
  isFirstTrackingCall : Bool
  computeKeypointCount : Nat
  totalFrameTreated : Nat
  localMap : L

/-- What one call of `track` shows to the outside. -/
structure Out (Pose : Type) where
  /-- the returned pose -/
  returned : Pose
  /-- was the detector asked to recompute all keypoints -/
  forcedDetection : Bool
  /-- pose found by the optimiser on this frame, if any -/
  optimized : Option Pose
  /-- pose found and map update completed -/
  tracked : Bool
  /-- did this frame call `add_all_features_to_map` -/
  reseeded : Bool
  /-- `_isTrackingLost` after the frame (red overlay of `get_debug_image`, src/rgbd_slam.cpp:154) -/
  lostAfter : Bool

variable {L Det Pose Match : Type}

/-- Constructor, src/rgbd_slam.cpp:17-83, once the parameters are valid (see `Model.Params`). -/
def init (start : Pose) (map : L) : State L Pose :=
  { currentPose := start, isTrackingLost := true, failedTrackingCount := 0,
    isFirstTrackingCall := true, computeKeypointCount := 0, totalFrameTreated := 0,
    localMap := map }

/-- `++_failedTrackingCount` on a 32 bit unsigned (src/rgbd_slam.cpp:221 and 247). -/
def incr (n : Nat) : Nat := (n + 1) % uintSize

/-- `RGBD_SLAM::compute_new_pose` (src/rgbd_slam.cpp:163-259) followed by the frame counter of
`track` (123).  The image size asserts of `track` (101-104) are taken as met. -/
def step (ops : MapOps L Det Pose Match) (po : PoseOps Pose) (f : Frame L Det Pose Match)
    (s : State L Pose) : Outcome (State L Pose × Out Pose) :=
  if po.covValid s.currentPose then
    let count := s.computeKeypointCount % keypointRefreshFrequency + 1
    let predicted := s.currentPose
    let forced := s.isTrackingLost || (count == 1)
    let det := f.detect s.localMap predicted forced
    let (map1, found) := ops.find predicted det s.localMap
    match (if s.isFirstTrackingCall then none else f.optimize predicted found) with
    | some (opt, outliers) =>
      let (map2, threw) := ops.update opt det outliers map1
      if threw then
        let map3 := ops.updateNoPose map2
        let failed := incr s.failedTrackingCount
        .ok ({ currentPose := opt, isTrackingLost := decide (3 < failed),
               failedTrackingCount := failed, isFirstTrackingCall := false,
               computeKeypointCount := count, totalFrameTreated := s.totalFrameTreated + 1,
               localMap := map3 },
             { returned := opt, forcedDetection := forced, optimized := some opt,
               tracked := false, reseeded := false, lostAfter := decide (3 < failed) })
      else
        .ok ({ currentPose := opt, isTrackingLost := false, failedTrackingCount := 0,
               isFirstTrackingCall := false, computeKeypointCount := count,
               totalFrameTreated := s.totalFrameTreated + 1, localMap := map2 },
             { returned := opt, forcedDetection := forced, optimized := some opt,
               tracked := true, reseeded := false, lostAfter := false })
    | none =>
      let map2 := ops.updateNoPose map1
      let reseed := s.isTrackingLost && po.posCovValid predicted
      let map3 := if reseed then ops.addAll predicted det map2 else map2
      let failed := if s.isFirstTrackingCall then s.failedTrackingCount
                    else incr s.failedTrackingCount
      let lost := if s.isFirstTrackingCall then s.isTrackingLost else decide (3 < failed)
      .ok ({ currentPose := predicted, isTrackingLost := lost, failedTrackingCount := failed,
             isFirstTrackingCall := false, computeKeypointCount := count,
             totalFrameTreated := s.totalFrameTreated + 1, localMap := map3 },
           { returned := predicted, forcedDetection := forced, optimized := none,
             tracked := false, reseeded := reseed, lostAfter := lost })
  else .exit

/-- Successive calls of `track` (src/rgbd_slam.cpp:99-125). -/
def run (ops : MapOps L Det Pose Match) (po : PoseOps Pose) :
    List (Frame L Det Pose Match) → State L Pose → Outcome (State L Pose × List (Out Pose))
  | [], s => .ok (s, [])
  | f :: fs, s =>
    (step ops po f s).bind fun (s', o) =>
      (run ops po fs s').bind fun (s'', os) => .ok (s'', o :: os)

end RgbdSlam.Slam

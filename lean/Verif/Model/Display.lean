import Verif.Model.Angles
/-
What the program writes about a pose and about the end of an optimisation: src/utils/pose.cpp, the end message of
src/pose_optimization/levenberg_marquardt_functors.cpp and its use in pose_optimization.cpp.

A text is the list of its numbers, each with the name under which it is written; doubles are reals and are written
without loss.
-/
namespace RgbdSlam.Display

open Geometry Angles Matrix

noncomputable section

/-- The numbers of `PoseBase::display`, src/utils/pose.cpp 30-35: `position: (..) millimeters | rotation: (..)
degrees`. -/
structure PoseText where
  position : ℝ × ℝ × ℝ
  rotation : ℝ × ℝ × ℝ

/-- src/types.hpp 15, `EulerToRadian`. -/
def eulerToRadian : ℝ := Real.pi / 180

/-- src/utils/pose.cpp 30-35, `PoseBase::display`; `xyz` is the function of Eigen that gives the angles of the system
XYZ of a matrix. -/
def displayBase (xyz : M3 → V3) (p : Pose) : PoseText :=
  let displayAngles := eulerOf xyz p.orientation
  { position := (p.position 0, p.position 1, p.position 2)
    rotation := (displayAngles.yaw / eulerToRadian, displayAngles.pitch / eulerToRadian,
      displayAngles.roll / eulerToRadian) }

/-- The columns of the table of `Pose::display`. -/
inductive Column
  | x | y | z | roll | pitch | yaw
  deriving DecidableEq, Repr

/-- The line of titles of src/utils/pose.cpp 76. -/
def titles : List Column := [.x, .y, .z, .roll, .pitch, .yaw]

/-- src/utils/pose.cpp 72-80, `Pose::display`: the text of the pose, then the standard deviations under their titles, in
meters and degrees.  `variance` is the diagonal of `_poseVariance`. -/
def display (xyz : M3 → V3) (p : Pose) (variance : Fin 6 → ℝ) : PoseText × List (Column × ℝ) :=
  let poseStd := fun i => Real.sqrt (variance i)
  (displayBase xyz p,
    titles.zip [poseStd 0 / 1000, poseStd 1 / 1000, poseStd 2 / 1000,
      poseStd 3 * 180 / Real.pi, poseStd 4 * 180 / Real.pi, poseStd 5 * 180 / Real.pi])

end

/-- `Eigen::LevenbergMarquardtSpace::Status`. -/
inductive Status
  | notStarted | running | improperInputParameters | relativeReductionTooSmall | relativeErrorTooSmall
  | relativeErrorAndReductionTooSmall | cosinusTooSmall | tooManyFunctionEvaluation | ftolTooSmall | xtolTooSmall
  | gtolTooSmall | userAsked
  deriving DecidableEq, Repr

/-- The values of `Eigen::LevenbergMarquardtSpace::Status`, from -2 on. -/
def Status.value : Status → Int
  | .notStarted => -2
  | .running => -1
  | .improperInputParameters => 0
  | .relativeReductionTooSmall => 1
  | .relativeErrorTooSmall => 2
  | .relativeErrorAndReductionTooSmall => 3
  | .cosinusTooSmall => 4
  | .tooManyFunctionEvaluation => 5
  | .ftolTooSmall => 6
  | .xtolTooSmall => 7
  | .gtolTooSmall => 8
  | .userAsked => 9

/-- src/pose_optimization/levenberg_marquardt_functors.cpp 174-206, `get_human_readable_end_message`. -/
def endMessage : Status → String
  | .notStarted => "not started"
  | .running => "running"
  | .improperInputParameters => "improper input parameters"
  | .relativeReductionTooSmall => "relative reduction too small"
  | .relativeErrorTooSmall => "relative error too small"
  | .relativeErrorAndReductionTooSmall => "relative error and reduction too small"
  | .cosinusTooSmall => "cosinus too small"
  | .tooManyFunctionEvaluation => "too many function evaluation"
  | .ftolTooSmall => "xtol too small"
  | .xtolTooSmall => "ftol too small"
  | .gtolTooSmall => "gtol too small"
  | .userAsked => "user asked"

/-- src/pose_optimization/pose_optimization.cpp 338-347: the number of features and the message that are logged when the
optimisation ends, if any. -/
def logged (features : Nat) (endStatus : Status) : Option (Nat × String) :=
  if endStatus.value ≤ 0 then some (features, endMessage endStatus) else none

end RgbdSlam.Display

import Verif.Model.Angles
import Verif.Model.Tum
import Verif.Model.Outcome
/-
The reader of association files of the example program (examples/TUM_parser.hpp) and its main loop
(examples/main_TUM.cpp).

The tracker is any state machine: `RGBD_SLAM::track` takes two images and returns a pose, and can end the program.
Images are what `cv::imread` returns, `none` for an image that cannot be read.  The display, the timing and the
waiting of the loop are left out; a key of the user is given for each treated frame.
-/
namespace RgbdSlam.TumRun

open Geometry Angles

/-- The values read from a line of the association file; a path that is not read is empty. -/
structure AssociationLine where
  depthTime : ℚ
  depthPath : String
  rgbTime : ℚ
  rgbPath : String

/-- examples/TUM_parser.hpp 61-110, `parse_association_file`, without the lines of comments. -/
def parseAssociations {G : Type} (truth : Tum.TimeMap G) (lines : List AssociationLine) : List (Tum.Frame G) :=
  lines.filterMap fun l =>
    if l.depthPath ≠ "" ∧ l.rgbPath ≠ "" then
      some { rgb := (l.rgbTime, l.rgbPath), depth := some (l.depthTime, l.depthPath),
             groundTruth := (Tum.find? l.rgbTime truth).map fun g => (l.rgbTime, g) }
    else none

/-- `cv::Mat`, with pixels of type `P`. -/
structure Image (P : Type) where
  rows : ℕ
  cols : ℕ
  pixel : ℕ → ℕ → P

/-- A colour pixel. -/
abbrev Colour := ℕ × ℕ × ℕ

/-- An element of the dataset once its images are read (examples/main_TUM.cpp 216-221): the ground truth is the position
and orientation of the file, as they are written in it. -/
structure Input where
  rgb : Option (Image Colour)
  depth : Option (Image ℚ)
  truth : Option (V3 × Quat)

/-- The keys that the loop distinguishes (examples/main_TUM.cpp 23-36). -/
inductive Key
  | pause
  | quit
  | other
  deriving DecidableEq

/-- examples/main_TUM.cpp 23-36, `check_user_inputs`: the new value of `shouldStop`, which is true while the loop goes
on. -/
def checkUserInputs (goOn : Bool) : Key → Bool
  | .pause => goOn
  | .quit => false
  | .other => goOn

/-- examples/main_TUM.cpp 223-243: images that replace missing ones, check of the sizes, depths in millimetres. -/
def prepare (width height : ℕ) (f : Input) : Outcome (Image Colour × Image ℚ) :=
  let rgb := f.rgb.getD { rows := height, cols := width, pixel := fun _ _ => (0, 0, 0) }
  let depth := f.depth.getD { rows := height, cols := width, pixel := fun _ _ => 0 }
  if ¬ (rgb.cols = width ∧ rgb.rows = height) then .terminate
  else if ¬ (depth.cols = width ∧ depth.rows = height) then .terminate
  else .ok (rgb, { depth with pixel := fun i j => depth.pixel i j * (1 / 5) })

/-- A line of the trajectory file. -/
structure Line where
  position : V3
  angles : Euler

/-- The options of the program, the camera and the functions it is linked with. -/
structure Program (S : Type) where
  jump : ℕ
  save : Bool
  width : ℕ
  height : ℕ
  track : S → Image Colour × Image ℚ → Outcome (S × Pose)
  xyz : M3 → V3

/-- The variables of the loop (examples/main_TUM.cpp 178-201). -/
structure Loop (S : Type) where
  slam : S
  pose : Pose
  goOn : Bool
  frameIndex : ℕ
  treated : ℕ
  positionError : ℝ
  rotationError : ℝ
  truthAvailable : Bool
  lines : List Line

noncomputable section

/-- examples/main_TUM.cpp 286-295, the line written for a pose. -/
def lineOf (xyz : M3 → V3) (p : Pose) : Line :=
  { position := p.position, angles := eulerOf xyz p.orientation }

/-- examples/main_TUM.cpp 263-284, what follows the tracking of a frame. -/
def record {S : Type} (prog : Program S) (key : Key) (f : Input) (s : Loop S) (slam : S) (pose : Pose) : Loop S :=
  { slam := slam
    pose := pose
    goOn := checkUserInputs s.goOn key
    frameIndex := (s.frameIndex + 1) % 2 ^ 32
    treated := s.treated + 1
    positionError := match f.truth with
      | some g => Angles.positionError pose (Pose.ofParameters g.1 g.2)
      | none => s.positionError
    rotationError := match f.truth with
      | some g => Angles.rotationError pose (Pose.ofParameters g.1 g.2)
      | none => s.rotationError
    truthAvailable := f.truth.isSome
    lines := if prog.save then s.lines ++ [lineOf prog.xyz pose] else s.lines }

/-- examples/main_TUM.cpp 202-302, the loop; `keys n` is the key pressed after the `n`-th treated frame. -/
def loop {S : Type} (prog : Program S) (keys : ℕ → Key) : List Input → Loop S → Outcome (Loop S)
  | [], s => .ok s
  | f :: rest, s =>
    if ¬ s.goOn then .ok s
    else if 0 < prog.jump ∧ s.frameIndex % prog.jump ≠ 0 then
      loop prog keys rest { s with frameIndex := (s.frameIndex + 1) % 2 ^ 32 }
    else
      (prepare prog.width prog.height f).bind fun images =>
        (prog.track s.slam images).bind fun r => loop prog keys rest (record prog (keys s.treated) f s r.1 r.2)

/-- examples/main_TUM.cpp 158-163: the pose given to the tracker at first, from the first element of the dataset. -/
def startPose (frames : List Input) : Pose :=
  match frames.head? with
  | some ⟨_, _, some g⟩ => Pose.ofParameters g.1 g.2
  | _ => Pose.default

/-- What the program shows at its end. -/
structure Report where
  /-- centimetres and degrees -/
  error : Option (ℝ × ℝ)
  endPose : Pose
  trajectory : List Line

/-- examples/main_TUM.cpp 153-319, `main` after the options and the configuration are read; `create` is the
constructor of the tracker. The return value -1 of an empty dataset is `none`. -/
def run {S : Type} (prog : Program S) (create : Pose → S) (start : ℕ) (keys : ℕ → Key) (frames : List Input) :
    Outcome (Option Report) :=
  if frames.isEmpty then .ok none
  else
    let pose := startPose frames
    (loop prog keys frames
      { slam := create pose, pose := pose, goOn := true, frameIndex := start % 2 ^ 32, treated := 0, positionError := 0,
        rotationError := 0, truthAvailable := false, lines := [] }).map fun s =>
      some { error := if s.truthAvailable then some (s.positionError / 10, s.rotationError) else none
             endPose := s.pose
             trajectory := s.lines }

end

end RgbdSlam.TumRun

import Verif.Model.TumRun
/-
The example program for the datasets of numbered images (examples/main_CAPE.cpp), and the name of the trajectory file of
both example programs.

The tracker is any state machine, as in Verif/Model/TumRun.lean; the keys of the user, which `check_user_inputs` reads
(examples/main_CAPE.cpp 17-30, the same text as in main_TUM.cpp), are those of this file.  The display, the timing and
the waiting of the loop are left out.
-/
namespace RgbdSlam.CapeRun

open Geometry Angles
open TumRun (Image Colour Key Line checkUserInputs lineOf)

/-- What is found in the folder of a dataset under a file name: nothing, a file that is not an image, or an image. -/
inductive File (P : Type)
  | missing
  | unreadable
  | image (i : Image P)

/-- examples/main_CAPE.cpp 36-40, `is_file_valid`. -/
def File.isValid {P : Type} : File P → Bool
  | .missing => false
  | _ => true

/-- `cv::imread`: an image without data when the file cannot be read. -/
def File.read {P : Type} : File P → Option (Image P)
  | .image i => some i
  | _ => none

/-- The files `rgb_<index>.png` and `depth_<index>.png` of a dataset. -/
structure Dataset where
  rgb : ℕ → File Colour
  depth : ℕ → File ℚ

/-- examples/main_CAPE.cpp 47-66, `load_images`. -/
def loadImages (d : Dataset) (index : ℕ) : Option (Image Colour × Image ℚ) :=
  if (d.rgb index).isValid ∧ (d.depth index).isValid then
    match (d.depth index).read, (d.rgb index).read with
    | some depth, some rgb => some (rgb, depth)
    | _, _ => none
  else none

/-- The options of the program, the camera and the functions it is linked with. -/
structure Program (S : Type) where
  jump : ℕ
  save : Bool
  width : ℕ
  height : ℕ
  /-- `Depth_Map_Transformation::rectify_depth` -/
  rectify : Image ℚ → Option (Image ℚ)
  track : S → Image Colour × Image ℚ → Outcome (S × Pose)
  xyz : M3 → V3

/-- The variables of the loop (examples/main_CAPE.cpp 143-170). -/
structure Loop (S : Type) where
  slam : S
  pose : Pose
  goOn : Bool
  frameIndex : ℕ
  treated : ℕ
  lines : List Line

/-- examples/main_CAPE.cpp 186-190 and rgbd_slam.cpp 85-97: check of the sizes, and the depth image replaced by the
rectified one, which must have the same size, or kept when that fails. -/
def prepare {S : Type} (prog : Program S) (images : Image Colour × Image ℚ) : Outcome (Image Colour × Image ℚ) :=
  if ¬ (images.1.cols = prog.width ∧ images.1.rows = prog.height) then .terminate
  else if ¬ (images.2.cols = prog.width ∧ images.2.rows = prog.height) then .terminate
  else match prog.rectify images.2 with
    | some depth =>
      if depth.rows = images.2.rows ∧ depth.cols = images.2.cols then .ok (images.1, depth) else .terminate
    | none => .ok images

noncomputable section

/-- examples/main_CAPE.cpp 205-221, what follows the tracking of a frame. -/
def record {S : Type} (prog : Program S) (key : Key) (s : Loop S) (slam : S) (pose : Pose) : Loop S :=
  { slam := slam
    pose := pose
    goOn := checkUserInputs s.goOn key
    treated := s.treated + 1
    frameIndex := (s.frameIndex + 1) % 2 ^ 32
    lines := if prog.save then s.lines ++ [lineOf prog.xyz pose] else s.lines }

/-- examples/main_CAPE.cpp 171-228, the loop, with a bound on the number of turns; `keys n` is the key pressed after the
`n`-th treated frame. -/
def loop {S : Type} (prog : Program S) (keys : ℕ → Key) (d : Dataset) : ℕ → Loop S → Outcome (Loop S)
  | 0, _ => .outOfFuel
  | fuel + 1, s =>
    if ¬ s.goOn then .ok s
    else if 0 < prog.jump ∧ s.frameIndex % prog.jump ≠ 0 then
      loop prog keys d fuel { s with frameIndex := (s.frameIndex + 1) % 2 ^ 32 }
    else match loadImages d s.frameIndex with
      | none => .ok s
      | some images =>
        (prepare prog images).bind fun images =>
          (prog.track s.slam images).bind fun r => loop prog keys d fuel (record prog (keys s.treated) s r.1 r.2)

/-- What the program shows at its end; the statistics are left out. -/
structure Report where
  endPose : Pose
  frame : ℕ
  trajectory : List Line

/-- examples/main_CAPE.cpp 137-239, `main` after the options and the configuration are read; `create` is the constructor
of the tracker; the index option is a signed integer, stored in an unsigned one of 32 bits. -/
def run {S : Type} (prog : Program S) (create : Pose → S) (start : ℤ) (keys : ℕ → Key) (d : Dataset) (fuel : ℕ) :
    Outcome Report :=
  (loop prog keys d fuel
    { slam := create Pose.default, pose := Pose.default, goOn := true, frameIndex := (start % 2 ^ 32).toNat,
      treated := 0, lines := [] }).map fun s =>
    { endPose := s.pose, frame := s.frameIndex, trajectory := s.lines }

end

/-- `std::tm`, the fields that are used: years since 1900, months from 0, day of the month from 1, hours, minutes and
seconds (up to 60) from 0. -/
structure Tm where
  year : ℕ
  mon : ℕ
  mday : ℕ
  hour : ℕ
  min : ℕ
  sec : ℕ
  deriving DecidableEq

/-- `std::to_string`. -/
def number (n : ℕ) : List Char := Nat.toDigits 10 n

/-- examples/main_CAPE.cpp 158-162 and examples/main_TUM.cpp 189-193, `dateAndTime`. -/
def dateAndTime (t : Tm) : List Char :=
  number (1900 + t.year) ++ '-' :: (number (1 + t.mon) ++ '-' :: (number t.mday ++ '_' ::
    (number (1 + t.hour) ++ ':' :: (number (1 + t.min) ++ ':' :: number (1 + t.sec)))))

/-- examples/main_CAPE.cpp 164, the name of the trajectory file. -/
def capeFile (dataset : List Char) (t : Tm) : List Char :=
  "traj_".toList ++ dataset ++ "_mat_".toList ++ dateAndTime t ++ ".txt".toList

/-- examples/main_TUM.cpp 195, the name of the trajectory file. -/
def tumFile (dataset : List Char) (t : Tm) : List Char :=
  "traj_TUM_".toList ++ dataset ++ "_".toList ++ dateAndTime t ++ ".txt".toList

end RgbdSlam.CapeRun

import Verif.Model.TumText
/-
The program of examples/main_TUM.cpp on the directory of a dataset, from the text of its files to its report.
-/
namespace RgbdSlam.TumProgram

open Geometry TumText

/-- The directory of a dataset: its text files, and what `cv::imread` gives for a path in it. -/
structure Directory where
  file : String → Option Text
  colour : String → Option (TumRun.Image TumRun.Colour)
  depth : String → Option (TumRun.Image ℚ)

/-- A file that is read line by line: `std::getline` gives no line when the file could not be opened
(examples/TUM_parser.hpp 114-117 and 135-138). -/
def Directory.text (dir : Directory) (name : String) : Text := (dir.file name).getD []

/-- examples/main_TUM.cpp 105-127, `get_data_association`. -/
inductive Associated (dir : Directory) : Outcome (List (Tum.Frame (List (Option ℚ)))) → Prop
  | fromFile {text : Text} : dir.file "associations.txt" = some text →
      Associated dir (parseAssociationFile (parseTruth (dir.text "groundtruth.txt")) text)
  | fromLists {o : Outcome (List (Tum.Frame (List (Option ℚ))))} : dir.file "associations.txt" = none →
      Tum.Associates (parseImages (dir.text "rgb.txt")) (parseImages (dir.text "depth.txt"))
        (parseTruth (dir.text "groundtruth.txt")) o →
      Associated dir o

noncomputable section

/-- The position and rotation of a ground truth (examples/TUM_parser.hpp 124-125): the numbers of the file are the
position, then x, y, z and w of the quaternion.  `unread i` is the value of the `i`-th number when it was not read. -/
def poseOf (unread : ℕ → ℝ) (numbers : List (Option ℚ)) : V3 × Quat :=
  let at' := fun i => match numbers.getD i none with
    | some v => (v : ℝ)
    | none => unread i
  (![at' 0, at' 1, at' 2], { w := at' 6, x := at' 3, y := at' 4, z := at' 5 })

/-- examples/main_TUM.cpp 216-221: the images of an element of the dataset; the path of an image that is not valid is
empty, which is not the path of an image. -/
def input (dir : Directory) (unread : ℕ → ℝ) (f : Tum.Frame (List (Option ℚ))) : TumRun.Input :=
  { rgb := dir.colour f.rgb.2
    depth := f.depth.bind fun d => dir.depth d.2
    truth := f.groundTruth.map fun g => poseOf unread g.2 }

/-- examples/main_TUM.cpp 149-319: `main` after its options are read. -/
inductive Runs {S : Type} (dir : Directory) (unread : ℕ → ℝ) (prog : TumRun.Program S) (create : Pose → S) (start : ℕ)
    (keys : ℕ → TumRun.Key) : Outcome (Option TumRun.Report) → Prop
  | run {o : Outcome (List (Tum.Frame (List (Option ℚ))))} : Associated dir o →
      Runs dir unread prog create start keys
        (o.bind fun frames => TumRun.run prog create start keys (frames.map (input dir unread)))

end

end RgbdSlam.TumProgram

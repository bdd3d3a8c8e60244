import Verif.Model.KeypointDetection
import Mathlib.Data.Rat.Floor
import Mathlib.Algebra.Order.Floor.Ring
/-
The two keypoint detectors of src/features/keypoints/keypoint_detection.cpp: their thresholds, and the FAST
detector of OpenCV they are made of (not in the repository; its documented algorithm `TYPE_9_16` with non maximum
suppression, the defaults of `cv::FastFeatureDetector::create`).
-/
namespace RgbdSlam.Fast

open KeypointDetection (Pixel Window Key windows maximumPoints)

/-- `get_fast_threshold`, keypoint_detection.cpp 47-49, for a whole number of points.  Exact numbers instead of
doubles. -/
def fastThreshold (pointsToDetect : Nat) : Rat := 412378 / 10000 * (99945 / 100000) ^ pointsToDetect

/-- `detectorThreshold`, keypoint_detection.cpp 52-53, for a maximum of `points` keypoints in a frame. -/
def detectorThreshold (points : Nat) : Int := ⌈fastThreshold (10 * points)⌉

/-- `advanceDetectorThreshold`, keypoint_detection.cpp 54-55. -/
def advancedThreshold (points : Nat) : Int := ⌈fastThreshold (30 * points)⌉

/-- The gray levels of an image. -/
abbrev Gray := Pixel → Nat

/-- The circle of 16 pixels of FAST, in order. -/
def circle : List (Int × Int) :=
  [(0, 3), (1, 3), (2, 2), (3, 1), (3, 0), (3, -1), (2, -2), (1, -3),
   (0, -3), (-1, -3), (-2, -2), (-3, -1), (-3, 0), (-3, 1), (-2, 2), (-1, 3)]

/-- The gray level of the `i`-th pixel of the circle around `p`. -/
def around (img : Gray) (p : Pixel) (i : Nat) : Int :=
  let o := circle.getD (i % 16) (0, 0)
  img ⟨p.x + o.1, p.y + o.2⟩

/-- `p` is a corner for threshold `t`: nine consecutive pixels of the circle are all brighter than it by more than
`t`, or all darker by more than `t`. -/
def corner (img : Gray) (t : Nat) (p : Pixel) : Bool :=
  (List.range 16).any fun s =>
    ((List.range 9).all fun i => decide ((img p : Int) + t < around img p (s + i))) ||
    ((List.range 9).all fun i => decide (around img p (s + i) < (img p : Int) - t))

/-- The score of a corner: the largest threshold for which it is one (`cornerScore`). -/
def score (img : Gray) (p : Pixel) : Nat := Nat.findGreatest (fun t => corner img t p = true) 255

/-- The pixels examined in an image of the given size: those at 3 pixels or more from its borders. -/
def examined (width height : Nat) : List Pixel :=
  (List.range (height - 6)).flatMap fun y : Nat => (List.range (width - 6)).map fun x : Nat => (⟨x + 3, y + 3⟩ : Pixel)

/-- The value kept for the non maximum suppression: the score of a corner, 0 for other pixels. -/
def value (img : Gray) (width height t : Nat) (p : Pixel) : Nat :=
  if p ∈ examined width height ∧ corner img t p = true then score img p else 0

/-- The eight neighbours of a pixel. -/
def neighbours (p : Pixel) : List Pixel :=
  [⟨p.x - 1, p.y - 1⟩, ⟨p.x, p.y - 1⟩, ⟨p.x + 1, p.y - 1⟩, ⟨p.x - 1, p.y⟩, ⟨p.x + 1, p.y⟩,
   ⟨p.x - 1, p.y + 1⟩, ⟨p.x, p.y + 1⟩, ⟨p.x + 1, p.y + 1⟩]

/-- `detect` of a FAST detector on an image, without mask: the corners whose score is larger than the value of the
eight neighbours, in the order of the pixels. -/
def fast (img : Gray) (width height t : Nat) : List Key :=
  ((examined width height).filter fun p =>
    corner img t p && (neighbours p).all fun q => decide (value img width height t q < score img p)).map
    fun p => ⟨p, score img p⟩

/-- The part of an image under a window (`grayImage(detectionWindow)`, keypoint_detection.cpp 443). -/
def cut (img : Gray) (w : Window) : Gray := fun p => img ⟨p.x + w.x, p.y + w.y⟩

/-- The answers of the two detectors made by the constructor (keypoint_detection.cpp 57-63) for window `i` of an
image: normal (`false`) and advanced (`true`). -/
def answers (img : Gray) (imageWidth imageHeight : Nat) (i : Nat) (advanced : Bool) : List Key :=
  match (windows imageWidth imageHeight)[i]? with
  | some w => fast (cut img w) w.width w.height
      (if advanced then advancedThreshold maximumPoints else detectorThreshold maximumPoints).toNat
  | none => []

end RgbdSlam.Fast

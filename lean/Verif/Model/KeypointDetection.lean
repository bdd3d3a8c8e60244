import Verif.Model.Keypoints
import Mathlib.Data.List.Sort
/-
Detection of new keypoints: src/features/keypoints/keypoint_detection.cpp.

The detectors, the descriptor extractor and the optical flow are OpenCV functions: they are arbitrary
functions here.  `cv::Rect::contains` and `cv::circle` first convert a point to integer coordinates; how
(rounding or truncation) depends on the version of OpenCV, so tracked points enter as their pixel.
-/
namespace RgbdSlam.KeypointDetection

open Keypoints (Pt Tracked Flow Handler DepthImage)

/-- A pixel, column then row. -/
structure Pixel where
  x : Int
  y : Int
  deriving DecidableEq, Repr

/-- `cv::Rect`. -/
structure Window where
  x : Nat
  y : Nat
  width : Nat
  height : Nat
  deriving DecidableEq, Repr

/-- `cv::Rect::contains`. -/
def Window.contains (w : Window) (p : Pixel) : Bool :=
  decide ((w.x : Int) ≤ p.x ∧ p.x < w.x + w.width ∧ (w.y : Int) ≤ p.y ∧ p.y < w.y + w.height)

/-- `keypointCellDetectionWidthCount` and `keypointCellDetectionHeightCount` (src/parameters.hpp 51-52). -/
def cellCount : Nat := 3

/-- `maximumPointPerFrame` (src/parameters.hpp 53). -/
def maximumPoints : Nat := 100

/-- `maxKeypointToDetectByCell`, keypoint_detection.cpp:418-420. -/
def perCell : Nat := maximumPoints / (cellCount * cellCount)

/-- The detection windows built by the constructor, keypoint_detection.cpp:23-31 and 70-83. -/
def windows (imageWidth imageHeight : Nat) : List Window :=
  let cellSizeY := imageHeight / cellCount
  let cellSizeX := imageWidth / cellCount
  (List.range cellCount).flatMap fun cellY => (List.range cellCount).map fun cellX =>
    ⟨cellX * cellSizeX, cellY * cellSizeY, cellSizeX, cellSizeY⟩

/-- Adds one to counter `i` (`uint16_t`, keypoint_detection.cpp:144). -/
def increment (counts : List Nat) (i : Nat) : List Nat := counts.modify i fun c => (c + 1) % 2 ^ 16

/-- The counters of `compute_key_point_mask`, keypoint_detection.cpp:124-154: each point is counted in
the first window that contains it. -/
def countInWindows (ws : List Window) : List Pixel → List Nat → List Nat
  | [], counts => counts
  | p :: ps, counts =>
    countInWindows ws ps
      (match ws.findIdx? (·.contains p) with
        | some i => increment counts i
        | none => counts)

/-- The mask of `compute_key_point_mask`, keypoint_detection.cpp:121-129: true where detection is allowed.
`disc p` are the pixels painted by `cv::circle` around `p` with a radius of 15 pixels. -/
def allowed (disc : Pixel → Pixel → Bool) (tracked : List Pixel) (p : Pixel) : Bool :=
  !tracked.any fun t => disc t p

/-- `cv::KeyPoint`: position and response (the other members are the same for all FAST keypoints). -/
structure Key where
  pos : Pixel
  response : Int
  deriving DecidableEq, Repr

/-- `n`-th largest response (`n` > 0), 0 when there are fewer. -/
def nthLargest (keys : List Key) (n : Nat) : Int :=
  ((keys.map (·.response)).insertionSort (fun a b => b ≤ a)).getD (n - 1) 0

/-- `cv::KeyPointsFilter::retainBest` of OpenCV: nothing changes when there are at most `n` keypoints;
otherwise all those at least as strong as the `n`-th strongest are kept, in an unspecified order (here in
their order; the theorems do not depend on it). -/
def retainBest (keys : List Key) (n : Nat) : List Key :=
  if keys.length ≤ n then keys
  else if n = 0 then []
  else keys.filter fun k => decide (nthLargest keys n ≤ k.response)

/-- Moves a keypoint found in a window to the image, keypoint_detection.cpp:464-465. -/
def Window.toImage (w : Window) (k : Key) : Key := { k with pos := ⟨k.pos.x + w.x, k.pos.y + w.y⟩ }

/-- Calls `detect` of a detector on a window with the mask: the keypoints `raw` found in the sub-image,
without those on a masked pixel. -/
def detectMasked (w : Window) (free : Pixel → Bool) (raw : List Key) : List Key :=
  raw.filter fun k => free (w.toImage k).pos

/-- Body of the loop of `perform_keypoint_detection` for one window, keypoint_detection.cpp:433-470: what
is added to the list.  `raw false` are the answers of the normal detector and `raw true` of the
advanced one, in coordinates of the window. -/
def detectInWindow (w : Window) (already : Nat) (free : Pixel → Bool) (raw : Bool → List Key) : List Key :=
  if already < perCell then
    let wanted := perCell - already
    let first := detectMasked w free (raw false)
    let found := if first.length < wanted then detectMasked w free (raw true) else first
    (retainBest found wanted).map w.toImage
  else []

/-- `cv::KeyPointsFilter::removeDuplicated` of OpenCV: among the keypoints at the same position only the
strongest stays, the first one in case of a tie.  The order is kept. -/
def removeDuplicated (keys : List Key) : List Key :=
  (keys.zipIdx.filter fun (k, i) =>
    !keys.zipIdx.any fun (k', j) =>
      k'.pos == k.pos && (decide (k.response < k'.response) || (k'.response == k.response && decide (j < i)))).map
    (·.1)

/-- `perform_keypoint_detection`, keypoint_detection.cpp:404-474.  `order` is the order in which the
parallel bodies append their keypoints (under the mutex), a permutation of the window numbers. -/
def detect (imageWidth imageHeight : Nat) (disc : Pixel → Pixel → Bool) (tracked : List Pixel)
    (raw : Nat → Bool → List Key) (order : List Nat) : List Key :=
  let ws := windows imageWidth imageHeight
  let counts := countInWindows ws tracked (List.replicate ws.length 0)
  removeDuplicated (order.flatMap fun i =>
    match ws[i]?, counts[i]? with
    | some w, some already => detectInWindow w already (allowed disc tracked) (raw i)
    | _, _ => [])

/-- The answers of OpenCV during one call of `compute_keypoints`. -/
structure Answers (Desc : Type) where
  /-- forward optical flow, for the given points -/
  forward : List Pt → List Flow
  /-- backward optical flow -/
  backward : List Pt → List Flow
  /-- `detect_keypoints`, given the points already tracked -/
  detected : List Pt → List Pt
  /-- descriptors: the points kept and their descriptor -/
  describe : List Pt → List (Pt × Desc)

/-- `compute_keypoints`, keypoint_detection.cpp:158-260.  `hasPyramid` says if `_lastFramePyramide` is set
(it is set by every call), `last` are the keypoints given by the map. -/
def computeKeypoints {Desc : Type} (cols rows : Nat) (im : DepthImage) (hasPyramid : Bool)
    (last : List Tracked) (force : Bool) (a : Answers Desc) (h : Handler Desc) : Outcome (Handler Desc) :=
  let tracked :=
    if hasPyramid && !last.isEmpty then
      Keypoints.opticalFlow cols rows last (a.forward (last.map (·.pt))) a.backward
    else []
  let found :=
    if force || decide (tracked.length < maximumPoints) then
      let points := a.detected (tracked.map (·.pt))
      if points.isEmpty then [] else a.describe points
    else []
  Keypoints.set im (found.map (·.1)) (found.map (·.2)) tracked h

end RgbdSlam.KeypointDetection

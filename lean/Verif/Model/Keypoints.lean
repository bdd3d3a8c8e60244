import Verif.Model.Outcome
/-
Keypoints: src/features/keypoints/keypoint_handler.{hpp,cpp} and the optical flow and detection logic
of keypoint_detection.cpp.  Coordinates are exact rationals (finite floats); descriptors are an
arbitrary type with an integer (Hamming) distance.
-/
namespace RgbdSlam.Keypoints

/-- A 2D point of the image. -/
structure Pt where
  x : Rat
  y : Rat
  deriving DecidableEq, Repr

/-- `ScreenCoordinate`: position and depth (0: no depth). -/
structure Kp where
  pt : Pt
  depth : Rat
  deriving DecidableEq, Repr

/-- `is_in_border`, keypoint_handler.cpp:10-15. -/
def inBorder (p : Pt) (cols rows : Nat) (border : Rat) : Bool :=
  decide (border ≤ p.x ∧ border ≤ p.y ∧ p.x < (cols : Rat) - border ∧ p.y < (rows : Rat) - border)

/-- `std::round` of a non-negative number. -/
def round (r : Rat) : Int := (r + 1 / 2).floor

/-- A depth image: size and values; reading outside is undefined behaviour (`none`). -/
structure DepthImage where
  cols : Nat
  rows : Nat
  value : Nat → Nat → Rat

/-- `cv::Mat::at` with row and column. -/
def DepthImage.at (im : DepthImage) (row col : Int) : Outcome Rat :=
  if 0 ≤ row ∧ row < im.rows ∧ 0 ≤ col ∧ col < im.cols then .ok (im.value row.toNat col.toNat) else .ub

/-- `get_depth`, keypoint_handler.cpp:17-26; `BORDER_SIZE` = 1. -/
def getDepth (im : DepthImage) (p : Pt) : Outcome Rat :=
  if inBorder p im.cols im.rows 1 then im.at (round p.y) (round p.x) else .ok 0

/-- Side of a search cell: `matchSearchRadius_px + 1` (keypoint_handler.cpp:41). -/
def cellSize : Nat := 31

/-- `matchSearchRadius_px`. -/
def searchRadius : Nat := 30

/-- A keypoint tracked by optical flow with the id of its map point, `keypointWithId` (hpp:43-49). -/
structure Tracked where
  id : Nat
  pt : Pt
  deriving DecidableEq, Repr

/-- Members of `Keypoint_Handler`.  `ids` is the content of `_uniqueIdsToKeypointIndex`, last written
first. -/
structure Handler (Desc : Type) where
  keypoints : List Kp
  descs : List Desc
  cellX : Nat
  cellY : Nat
  cells : List (List Nat)
  ids : List (Nat × Nat)

variable {Desc : Type}

/-- Constructor, keypoint_handler.cpp:28-53 (`maxMatchDistance` is the constant 0.7). -/
def create (cols rows : Nat) : Handler Desc :=
  let cx := (cols + cellSize - 1) / cellSize
  let cy := (rows + cellSize - 1) / cellSize
  ⟨[], [], cx, cy, List.replicate (cy * cx) [], []⟩

/-- `get_search_space_coordinates`, keypoint_handler.cpp:130-137, for one axis with `count` cells. -/
def cellCoord (v : Rat) (count : Nat) : Nat :=
  (max 0 (min (v / cellSize).floor ((count : Int) - 1))).toNat

/-- `get_search_space_index(x, y)`, keypoint_handler.cpp:128: the row length used is `_cellCountY`. -/
def cellIndex (h : Handler Desc) (x y : Nat) : Nat := y * h.cellY + x

/-- `clear`, keypoint_handler.cpp:55-66. -/
def clear (h : Handler Desc) : Handler Desc :=
  { h with keypoints := [], ids := [], cells := h.cells.map fun _ => [] }

/-- First loop of `set`, keypoint_handler.cpp:83-97, from keypoint number `i` on.  An index outside the
grid is an assertion failure, and undefined behaviour without assertions. -/
def addDetected (im : DepthImage) : Nat → List Pt → Handler Desc → Outcome (Handler Desc)
  | _, [], h => .ok h
  | i, p :: ps, h =>
    (getDepth im p).bind fun d =>
      let c := cellIndex h (cellCoord p.x h.cellX) (cellCoord p.y h.cellY)
      if c < h.cells.length then
        addDetected im (i + 1) ps
          { h with keypoints := h.keypoints ++ [⟨p, d⟩], cells := h.cells.modify c (· ++ [i]) }
      else .ub

/-- Second loop of `set`, keypoint_handler.cpp:99-121: no search cell; the id is recorded if not 0. -/
def addTracked (im : DepthImage) : Nat → List Tracked → Handler Desc → Outcome (Handler Desc)
  | _, [], h => .ok h
  | i, t :: ts, h =>
    (getDepth im t.pt).bind fun d =>
      addTracked im (i + 1) ts
        { h with keypoints := h.keypoints ++ [⟨t.pt, d⟩],
                 ids := if 0 < t.id then (t.id, i) :: h.ids else h.ids }

/-- `set`, keypoint_handler.cpp:68-122. -/
def set (im : DepthImage) (detected : List Pt) (descs : List Desc) (tracked : List Tracked)
    (h : Handler Desc) : Outcome (Handler Desc) :=
  (addDetected im 0 detected { clear h with descs := descs }).bind fun h1 =>
    addTracked im detected.length tracked h1

/-- `get_tracking_match_index(id)`, keypoint_handler.cpp:191-207. -/
def trackIndex (h : Handler Desc) (id : Nat) : Option Nat :=
  if h.keypoints.isEmpty then none
  else if id ≠ 0 then h.ids.lookup id
  else none

/-- Unsigned 32-bit subtraction. -/
def sub32 (a b : Nat) : Nat := (a + 2 ^ 32 - b) % 2 ^ 32

/-- Squared distance. -/
def dist2 (p q : Pt) : Rat := (p.x - q.x) * (p.x - q.x) + (p.y - q.y) * (p.y - q.y)

/-- `fill_keypoint_mask`, keypoint_handler.cpp:169-189: the test is against the fixed radius. -/
def fillMask (h : Handler Desc) (p : Pt) (flags : List Bool) :
    List Nat → List Bool → Outcome (List Bool)
  | [], mask => .ok mask
  | i :: is, mask =>
    match flags[i]?, h.keypoints[i]? with
    | some false, some k =>
      if dist2 k.pt p ≤ (searchRadius * searchRadius : Nat) then
        if i < mask.length then fillMask h p flags is (mask.set i true) else .ub
      else fillMask h p flags is mask
    | some true, _ => fillMask h p flags is mask
    | _, _ => .ub

/-- Inner loop of `compute_key_point_mask`, keypoint_handler.cpp:155-163, over given cells. -/
def fillCells (h : Handler Desc) (p : Pt) (flags : List Bool) :
    List Nat → List Bool → Outcome (List Bool)
  | [], mask => .ok mask
  | c :: cs, mask =>
    match h.cells[c]? with
    | none => .ub
    | some l => (fillMask h p flags l mask).bind (fillCells h p flags cs)

/-- `[start, stop)` as visited by a `for` loop. -/
def interval (start stop : Nat) : List Nat := (List.range (stop - start)).map (start + ·)

/-- The cells visited by the two loops of keypoint_handler.cpp:151-154. -/
def visited (h : Handler Desc) (p : Pt) (radius : Nat) : List Nat :=
  let cy := cellCoord p.y h.cellY
  let cx := cellCoord p.x h.cellX
  let startY := max 0 (sub32 cy radius)
  let startX := max 0 (sub32 cx radius)
  let endY := min h.cellY (cy + radius + 1)
  let endX := min h.cellX (cx + radius + 1)
  (interval startY endY).flatMap fun i => (interval startX endX).map fun j => cellIndex h j i

/-- `compute_key_point_mask`, keypoint_handler.cpp:139-167. -/
def mask (h : Handler Desc) (p : Pt) (flags : List Bool) (radius : Nat) : Outcome (List Bool) :=
  fillCells h p flags (visited h p radius) (List.replicate h.descs.length false)

/-- Insertion of a candidate (distance, index) after all candidates that are at least as close. -/
def insertCand (c : Nat × Nat) : List (Nat × Nat) → List (Nat × Nat)
  | [] => [c]
  | d :: ds => if c.1 < d.1 then c :: d :: ds else d :: insertCand c ds

/-- `BFMatcher::knnMatch` for one query: the masked rows by distance, ties by row; the two best.
OpenCV is not in the repository; this is its documented behaviour. -/
def knn2 (dist : Desc → Nat) (descs : List Desc) (mask : List Bool) : List (Nat × Nat) :=
  (((descs.zipIdx.filter fun (_, i) => mask[i]? == some true).map fun (d, i) => (dist d, i)).foldl
    (fun l c => insertCand c l) []).take 2

/-- `ceil(searchSpaceRadius / cellSize)`, keypoint_handler.cpp:250. -/
def cellRadius (radius : Nat) : Nat := (radius + cellSize - 1) / cellSize

/-- `get_match_indexes`, keypoint_handler.cpp:234-282; `_maxMatchDistance` = 0.7. -/
def matchIndexes (dist : Desc → Desc → Nat) (h : Handler Desc) (p : Pt) (desc : Desc)
    (flags : List Bool) (radius : Nat) : Outcome (List Nat) :=
  if h.keypoints.isEmpty || h.descs.isEmpty then .ok []
  else (mask h p flags (cellRadius radius)).bind fun m =>
    match knn2 (dist desc) h.descs m with
    | a :: b :: _ => .ok (if (a.1 : Rat) < 7 / 10 * b.1 then [a.2] else [])
    | [a] => .ok [a.2]
    | [] => .ok []

/-- `DetectedKeyPoint`. -/
structure Detected (Desc : Type) where
  kp : Kp
  desc : Option Desc

/-- `at` for all indexes in order, keypoint_handler.hpp:169-179. -/
def detections (h : Handler Desc) : List (Detected Desc) :=
  h.keypoints.zipIdx.map fun (k, i) => ⟨k, h.descs[i]?⟩

/-! ### Optical flow -/

/-- Answer of `cv::calcOpticalFlowPyrLK` for one point. -/
structure Flow where
  status : Nat
  pt : Pt
  deriving DecidableEq, Repr

/-- First loop of `get_keypoints_from_optical_flow`, keypoint_detection.cpp:303-318: points found in the
new image, with their number. -/
def keptForward (cols rows : Nat) (last : List Tracked) (forward : List Flow) :
    List (Pt × Nat) :=
  (last.zip forward).zipIdx.filterMap fun ((_, f), i) =>
    if f.status ≠ 1 then none
    else if !inBorder f.pt cols rows 0 then none
    else some (f.pt, i)

/-- Second loop, keypoint_detection.cpp:343-361; `backward` are the answers for the kept points.  The
norm is compared squared. -/
def opticalFlow (cols rows : Nat) (last : List Tracked) (forward : List Flow)
    (backwardOf : List Pt → List Flow) : List Tracked :=
  let kept := keptForward cols rows last forward
  (kept.zip (backwardOf (kept.map (·.1)))).filterMap fun ((_, i), b) =>
    if b.status ≠ 1 then none
    else match last[i]?, forward[i]? with
      | some t, some f =>
        if (searchRadius * searchRadius : Nat) < dist2 t.pt b.pt then none else some ⟨t.id, f.pt⟩
      | _, _ => none

end RgbdSlam.Keypoints

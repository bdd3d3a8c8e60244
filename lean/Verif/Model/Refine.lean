import Verif.Model.DepthMap
import Mathlib.Data.Int.Notation

/-
The end of the primitive detection: masks of cells, boundary points of the planes, cylinders kept, and the
tests that decide if cells and planes may be merged or matched.

Doubles and floats are modelled by the reals.
-/
namespace RgbdSlam.Refine

open Geometry

/-- A mask of the grid of cells, `cv::Mat_<uchar>` holding 0 or 1, by row and column
(src/features/primitives/primitive_detection.hpp, `_mask`, `_maskEroded`, `_maskDilated`). -/
abbrev Mask := ℕ → ℕ → Bool

/-- Value of a mask of `rows` × `cols` cells at a place, `outside` out of the grid (the border of
`cv::erode` and `cv::dilate`). -/
def valueAt (rows cols : ℕ) (outside : Bool) (m : Mask) (r c : ℤ) : Bool :=
  if 0 ≤ r ∧ r < rows ∧ 0 ≤ c ∧ c < cols then m r.toNat c.toNat else outside

/-- src/features/primitives/primitive_detection.cpp 46-50, `_maskCrossKernel`: the places of its ones,
from its centre. -/
def crossKernel : List (ℤ × ℤ) := [(-1, 0), (0, -1), (0, 0), (0, 1), (1, 0)]

/-- src/features/primitives/primitive_detection.cpp 52, `_maskSquareKernel`. -/
def squareKernel : List (ℤ × ℤ) :=
  [(-1, -1), (-1, 0), (-1, 1), (0, -1), (0, 0), (0, 1), (1, -1), (1, 0), (1, 1)]

/-- `cv::erode(m, ·, kernel)`: the minimum over the places of the kernel.  `outside` is the value of the
border: false for `cv::BORDER_CONSTANT` with `cv::Scalar(0)`, true for the default border, which never
changes a minimum. -/
def erode (rows cols : ℕ) (outside : Bool) (kernel : List (ℤ × ℤ)) (m : Mask) : Mask := fun r c =>
  kernel.all fun k => valueAt rows cols outside m (r + k.1) (c + k.2)

/-- `cv::dilate(m, ·, kernel)`: the maximum over the places of the kernel; the default border never
changes a maximum. -/
def dilate (rows cols : ℕ) (kernel : List (ℤ × ℤ)) (m : Mask) : Mask := fun r c =>
  kernel.any fun k => valueAt rows cols false m (r + k.1) (c + k.2)

/-- src/features/primitives/primitive_detection.cpp 676-681: the cells of the boundary,
`_maskDilated - _maskEroded` (a saturated difference of 0s and 1s). -/
def boundaryMask (rows cols : ℕ) (m : Mask) : Mask := fun r c =>
  dilate rows cols squareKernel m r c && !erode rows cols false crossKernel m r c

noncomputable section

/-- The depth image and the grid: `width` × `height` pixels, cells of `cell` × `cell` pixels
(primitive_detection.cpp 24-29: `_horizontalCellsCount` and `_verticalCellsCount` are quotients). -/
structure Grid where
  width : ℕ
  height : ℕ
  cell : ℕ
  depth : DepthMap.Image

/-- `_verticalCellsCount`. -/
def Grid.rows (g : Grid) : ℕ := g.height / g.cell

/-- `_horizontalCellsCount`. -/
def Grid.cols (g : Grid) : ℕ := g.width / g.cell

open Classical in
/-- src/features/primitives/primitive_detection.cpp 658-674 (`add_point_if_in_plane`) and 691-701: the point
of a boundary cell, if it has one.  `mse` is `planeSegment.get_MSE()`.  Reading out of the depth image is
undefined behaviour. -/
def cellPoint (K : M3) (g : Grid) (plane : Plane) (mse : ℝ) (m : Mask) (cell : ℕ × ℕ) :
    Outcome (Option V3) :=
  if !boundaryMask g.rows g.cols m cell.1 cell.2 then .ok none
  else
    let x := cell.2 * g.cell + g.cell / 2
    let y := cell.1 * g.cell + g.cell / 2
    if x < g.width ∧ y < g.height then
      let depth := g.depth y x
      if 0 < depth then
        (screenToCamera K ![(x : ℝ), (y : ℝ), depth]).bind fun p =>
          if |plane.distance p| < 3 * Real.sqrt mse then .ok (some p) else .ok none
      else .ok none
    else .ub

/-- The points found by the cells visited in this order, one after the other. -/
def pointsOf (K : M3) (g : Grid) (plane : Plane) (mse : ℝ) (m : Mask) : List (ℕ × ℕ) → Outcome (List V3)
  | [] => .ok []
  | c :: cs =>
    (cellPoint K g plane mse m c).bind fun p =>
      (pointsOf K g plane mse m cs).bind fun ps => .ok (p.toList ++ ps)

/-- The cells of the grid. -/
def Grid.cells (g : Grid) : List (ℕ × ℕ) :=
  (List.range g.rows).flatMap fun r => (List.range g.cols).map fun c => (r, c)

/-- src/features/primitives/primitive_detection.cpp 649-704 (`compute_plane_segment_boundary`, noexcept).
`cv::Mat::forEach` runs in parallel and the points are appended under a mutex: `order` is the order in
which the cells take that mutex. -/
def planeBoundary (K : M3) (g : Grid) (plane : Plane) (mse : ℝ) (m : Mask) (order : List (ℕ × ℕ)) :
    Outcome (List V3) :=
  (pointsOf K g plane mse m order).noexcept

/-- src/features/primitives/primitive_detection.cpp 614-632: a plane is given up when its boundary has less
than three points; `some` is the list handed to the polygon. -/
def keptBoundary (K : M3) (g : Grid) (plane : Plane) (mse : ℝ) (m : Mask) (order : List (ℕ × ℕ)) :
    Outcome (Option (List V3)) :=
  (planeBoundary K g plane mse m order).bind fun pts => .ok (if pts.length < 3 then none else some pts)

/-! ## Cylinders -/

/-- src/features/primitives/primitive_detection.cpp 718-721: the mask after the dilation and the erosion
written under the comment "Opening". -/
def closing (rows cols : ℕ) (m : Mask) : Mask :=
  erode rows cols true crossKernel (dilate rows cols crossKernel m)

/-- src/features/primitives/primitive_detection.cpp 714-728: is the cylinder of this mask returned?  `min`
and `max` are those of the eroded mask (0 and 1 are its only values).  An empty grid has no cylinder. -/
def cylinderKept (rows cols : ℕ) (m : Mask) : Bool :=
  let eroded := erode rows cols true crossKernel (closing rows cols m)
  let cells := (List.range rows).flatMap fun r => (List.range cols).map fun c => (r, c)
  let max : ℕ := if cells.any fun c => eroded c.1 c.2 then 1 else 0
  let min : ℕ := if cells.any fun c => !eroded c.1 c.2 then 0 else max
  !(decide (max ≤ 0) || decide (min ≥ max))

/-! ## Merging and matching tests -/

/-- src/parameters.hpp 75-78, `maximumPlaneAngleForMerge_d` and `maximumPlaneDistanceForMerge_mm`. -/
def mergeAngle : ℝ := 18
def mergeDistance : ℝ := 50

/-- src/parameters.hpp 94-97, `maximumAngleForPlaneMatch_d` and `maximumDistanceForPlaneMatch_mm`. -/
def matchAngle : ℝ := 20
def matchDistance : ℝ := 100

open Classical in
/-- src/features/primitives/plane_segment.cpp 322-326 (`can_be_merged`), with `get_cos_angle`
(src/coordinates/plane_coordinates.hpp 58-61): `centroid` is that of the other segment `b`. -/
def canBeMerged (a b : Plane) (centroid : V3) (maxDistance : ℝ) : Bool :=
  decide (Real.cos (mergeAngle * Real.pi / 180) < a.normal ⬝ᵥ b.normal) &&
    decide (|a.distance centroid| < maxDistance)

open Classical in
/-- src/features/primitives/primitive_detection.cpp 186-222 (`init_planar_cell_fitting`): the distance
tolerance of a cell.  `first` and `last` are the first and last points of the block of the cell in the
organised cloud, `count` is `get_point_count()`. -/
def cellTolerance (planar : Bool) (first last : V3) (count : ℕ) : ℝ :=
  if planar then
    min mergeDistance (Geometry.norm (last - first) * Real.sin (mergeAngle * Real.pi / 180) * Real.sqrt count)
  else 0

open Classical in
/-- src/features/primitives/shape_primitives.cpp 69-75, `Plane::is_normal_similar`. -/
def normalSimilar (a b : Plane) : Bool :=
  decide (|Real.cos (matchAngle * Real.pi / 180)| < |a.normal ⬝ᵥ b.normal|)

open Classical in
/-- src/features/primitives/shape_primitives.cpp 77-86, `Plane::is_distance_similar`. -/
def distanceSimilar (a b : Plane) : Bool := decide (|a.d - b.d| < matchDistance)

end

end RgbdSlam.Refine

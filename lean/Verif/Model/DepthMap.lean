import Verif.Model.Geometry

/-
The depth image: alignment with the colour image and the cloud of points ordered by patches.

Depths are reals: rounding to single precision is not modelled.
-/
namespace RgbdSlam.DepthMap

open Geometry

noncomputable section

/-- A depth image, by row and column. -/
abbrev Image := ℕ → ℕ → ℝ

/-- The value that `init_matrices` stores in `_cellMap` (src/features/primitives/depth_map_transformation.cpp
147-173).  The unsigned products are not reduced modulo 2^32: they are below the number of pixels of
the image rounded up to whole patches. -/
def cellIndex (width cellSize row col : ℕ) : ℕ :=
  let horizontalCellsCount := width / cellSize
  let cellR := row / cellSize
  let localR := row % cellSize
  let cellC := col / cellSize
  let localC := col % cellSize
  (cellR * horizontalCellsCount + cellC) * cellSize ^ 2 + localR * cellSize + localC

/-- The work of one iteration of the inner loop of `get_organized_cloud_array`
(src/features/primitives/depth_map_transformation.cpp 105-118): the row of the array that is written, and
its content.  Nothing is written for a depth that is not positive. -/
def cloudPixel (K : M3) (width height cellSize : ℕ) (depth : Image) (pixel : ℕ × ℕ) :
    Outcome (Option (ℕ × V3)) :=
  let z := depth pixel.1 pixel.2
  open Classical in
  if 0 < z then
    let id := cellIndex width cellSize pixel.1 pixel.2
    if width * height ≤ id then .terminate
    else (screenToCamera K ![(pixel.2 : ℝ), (pixel.1 : ℝ), z]).bind fun c => .ok (some (id, ![c 0, c 1, z]))
  else .ok none

/-- Iterations executed one after the other; each writes at most one place. -/
def runWrites {α β γ : Type} [DecidableEq β] (f : α → Outcome (Option (β × γ))) :
    List α → (β → γ) → Outcome (β → γ)
  | [], out => .ok out
  | a :: l, out =>
    (f a).bind fun w =>
      runWrites f l (match w with
        | none => out
        | some (b, c) => Function.update out b c)

/-- The iterations of the inner loop for a row, in order. -/
def rowPixels (width row : ℕ) : List (ℕ × ℕ) := (List.range width).map fun col => (row, col)

/-- An execution of `tbb::parallel_for` over rows: the inner iterations in the order in which they
happened.  The order inside a row is kept; rows are interleaved in any way. -/
inductive Interleaving {α : Type} : List (List α) → List α → Prop
  | done {rows : List (List α)} : (∀ r ∈ rows, r = []) → Interleaving rows []
  | step {rows : List (List α)} {l : List α} (i : ℕ) (a : α) (rest : List α) :
      rows[i]? = some (a :: rest) → Interleaving (rows.set i rest) l → Interleaving rows (a :: l)

/-- The rows of the image. -/
def imageRows (width height : ℕ) : List (List (ℕ × ℕ)) := (List.range height).map (rowPixels width)

/-- src/features/primitives/depth_map_transformation.cpp 89-142, `get_organized_cloud_array` (noexcept),
for one execution order of the pixels. -/
def organizedCloud (K : M3) (width height cellSize : ℕ) (depth : Image) (order : List (ℕ × ℕ)) :
    Outcome (ℕ → V3) :=
  (runWrites (cloudPixel K width height cellSize depth) order fun _ => 0).noexcept

/-- `static_cast<uint>(floor(x))`: the conversion is undefined out of the range of `uint`. -/
def toUint (x : ℝ) : Outcome ℕ := if 0 ≤ ⌊x⌋ ∧ ⌊x⌋ < 2 ^ 32 then .ok ⌊x⌋.toNat else .ub

/-- `(matrix * point.homogeneous()).head<3>()`. -/
def transformPoint (M : M4) (p : V3) : V3 := pointToWorld M p

open Classical in
/-- The work of one iteration of the inner loop of `rectify_depth`
(src/features/primitives/depth_map_transformation.cpp 46-79): the pixel that is written, and its depth.
`K` is the matrix of camera 1 (`_Xpre` and `_Ypre` are computed with it too, lines 159-163), `M` the
transformation from camera 2 to camera 1.  A zero depth after the transformation gives a NaN (and the
program exits) if a coordinate is zero too, and otherwise infinities, whose conversion is undefined. -/
def rectifyPixel (K : M3) (M : M4) (width height : ℕ) (depth : Image) (pixel : ℕ × ℕ) :
    Outcome (Option ((ℕ × ℕ) × ℝ)) :=
  let z := depth pixel.1 pixel.2
  if z ≤ 0 then .ok none
  else
    let pre := screenToCamera2 K ![(pixel.2 : ℝ), (pixel.1 : ℝ)]
    let projected := transformPoint M ![pre 0 * z, pre 1 * z, z]
    match cameraToScreen K projected with
    | none =>
      if cameraToScreen2 K projected 0 = 0 ∨ cameraToScreen2 K projected 1 = 0 then .exit else .ub
    | some s =>
      (toUint (s 0)).bind fun col =>
        (toUint (s 1)).bind fun row =>
          if 0 < col ∧ 0 < row ∧ col < width ∧ row < height then .ok (some ((row, col), projected 2))
          else .ok none

/-- src/features/primitives/depth_map_transformation.cpp 23-87, `rectify_depth`, for one execution order
of the pixels: the depth of every pixel. -/
def rectify (K : M3) (M : M4) (width height : ℕ) (depth : Image) (order : List (ℕ × ℕ)) :
    Outcome (ℕ × ℕ → ℝ) :=
  (runWrites (rectifyPixel K M width height depth) order fun _ => 0).noexcept

end

end RgbdSlam.DepthMap

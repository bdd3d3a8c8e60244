import Verif.Model.Outcome
/-
Geodesic dilation and erosion of grey images and the filling of holes
(third_party/geodesic_operations.cpp, built with the library).

Images have one channel; a pixel is a row and a column, its value a natural number (at most 255 in an image of
bytes).  A structuring element is the list of the offsets, from its anchor, of its non zero elements.
The output is not the image given as mask.  The dilation and the erosion of OpenCV with its default border ignore
the pixels outside of the image.
-/
namespace RgbdSlam.Geodesic

abbrev Pixel (h w : Nat) := Fin h × Fin w

abbrev Image (h w : Nat) := Pixel h w → Nat

abbrev Element := List (Int × Int)

variable {h w : Nat}

/-- The pixel at an offset, when it is in the image. -/
def shift (p : Pixel h w) (d : Int × Int) : Option (Pixel h w) :=
  if hx : (0 ≤ (p.1.val : Int) + d.1 ∧ (p.1.val : Int) + d.1 < h) ∧
      (0 ≤ (p.2.val : Int) + d.2 ∧ (p.2.val : Int) + d.2 < w) then
    some (⟨((p.1.val : Int) + d.1).toNat, by omega⟩, ⟨((p.2.val : Int) + d.2).toNat, by omega⟩)
  else none

/-- `cv::dilate`. -/
def dilate (se : Element) (f : Image h w) : Image h w := fun p =>
  (se.filterMap (shift p)).foldl (fun a q => max a (f q)) 0

/-- `cv::erode`. -/
def erode (se : Element) (f : Image h w) : Image h w := fun p =>
  (se.filterMap (shift p)).foldl (fun a q => min a (f q)) 255

/-- third_party/geodesic_operations.cpp 67-68 and 114-115: `cv::compare` with `CMP_NE`, then the sum. -/
def differ (f g : Image h w) : Bool :=
  (List.finRange h).any fun i => (List.finRange w).any fun j => decide (f (i, j) ≠ g (i, j))

/-- Lines 101-103, 112-113, 131-133 and 136-137: a dilation, then the minimum with the mask. -/
def dilateUnder (se : Element) (mask f : Image h w) : Image h w := fun p => min (dilate se f p) (mask p)

/-- Lines 54-56, 65-66, 79-81 and 84-85: an erosion, then the maximum with the mask. -/
def erodeOver (se : Element) (mask f : Image h w) : Image h w := fun p => max (erode se f p) (mask p)

/-- The do while loops of lines 61-68 and 109-115, with a step budget. -/
def untilStable (next : Image h w → Image h w) : Nat → Image h w → Outcome (Image h w)
  | 0, _ => .outOfFuel
  | n + 1, f => if differ f (next f) then untilStable next n (next f) else .ok (next f)

/-- `iterations` applications of `next`, lines 82-86 and 134-138. -/
def repeated (next : Image h w → Image h w) : Nat → Image h w → Image h w
  | 0, f => f
  | n + 1, f => repeated next n (next f)

/-- geodesic_operations.cpp 97-142, `GeodesicDilation`. -/
def geodesicDilation (fuel : Nat) (marker mask : Image h w) (se : Element) (iterations : Int) :
    Outcome (Image h w) :=
  if iterations < 0 then
    untilStable (dilateUnder se mask) fuel (dilateUnder se mask fun p => min (marker p) (mask p))
  else if iterations = 0 then .ok marker
  else .ok (repeated (dilateUnder se mask) (iterations.toNat - 1)
    (dilateUnder se mask fun p => min (marker p) (mask p)))

/-- geodesic_operations.cpp 50-90, `GeodesicErosion`. -/
def geodesicErosion (fuel : Nat) (marker mask : Image h w) (se : Element) (iterations : Int) :
    Outcome (Image h w) :=
  if iterations < 0 then
    untilStable (erodeOver se mask) fuel (erodeOver se mask fun p => max (marker p) (mask p))
  else if iterations = 0 then .ok marker
  else .ok (repeated (erodeOver se mask) (iterations.toNat - 1)
    (erodeOver se mask fun p => max (marker p) (mask p)))

/-- `cv::bitwise_not` of an image of bytes. -/
def complement (f : Image h w) : Image h w := fun p => 255 - f p

/-- The marker of lines 8-28.  The image is created without a value: `memory` is what the memory held.  The
sides take the values of the last row (`pxvecSrc2`). -/
def holeMarker (memory src : Image (h + 1) (w + 1)) : Image (h + 1) (w + 1) := fun p =>
  if p.1.val = 0 then 255 - src p
  else if p.1.val = h then 255 - src p
  else if p.2.val = w then 255 - src (Fin.last h, Fin.last w)
  else if p.2.val = 0 then 255 - src (Fin.last h, 0)
  else memory p

/-- The 3x3 element of lines 33-34. -/
def square3 : Element := [(-1, -1), (-1, 0), (-1, 1), (0, -1), (0, 0), (0, 1), (1, -1), (1, 0), (1, 1)]

/-- geodesic_operations.cpp 6-40, `fillHole`, of an image with at least one pixel. -/
def fillHole (fuel : Nat) (memory src : Image (h + 1) (w + 1)) : Outcome (Image (h + 1) (w + 1)) :=
  (geodesicDilation fuel (holeMarker memory src) (complement src) square3 (-1)).map complement

end RgbdSlam.Geodesic

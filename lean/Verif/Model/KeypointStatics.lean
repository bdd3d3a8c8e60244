import Verif.Model.KeypointDetection

/-
The `static` variables of the keypoint detection (src/features/keypoints/keypoint_detection.cpp), which are shared by
all the trackers of a program and keep the value of their first initialisation.
-/
namespace RgbdSlam.KeypointStatics

open KeypointDetection

/-- The `static` variables; `none`: not initialised yet. -/
structure Statics where
  /-- `imageWidth` and `imageHeight` of the constructor (keypoint_detection.cpp 24-25), from which come the static sizes
  of the detection windows (30-31) -/
  image : Option (ℕ × ℕ)
  /-- the size of `mask` in `compute_key_point_mask` (keypoint_detection.cpp 121) -/
  mask : Option (ℕ × ℕ)
  deriving DecidableEq, Repr

/-- At the start of the program. -/
def Statics.initial : Statics := ⟨none, none⟩

/-- keypoint_detection.cpp 22-31 and 70-83: a tracker is built for the configured images of `size` (width, height); the
result are its detection windows. -/
def construct (size : ℕ × ℕ) (s : Statics) : Statics × List Window :=
  let image := s.image.getD size
  ({ s with image := some image }, windows image.1 image.2)

/-- `image(window)` of OpenCV: a part of an image of `size`; it throws when the window is not in the image. -/
def part (size : ℕ × ℕ) (w : Window) : Outcome Unit :=
  if w.x + w.width ≤ size.1 ∧ w.y + w.height ≤ size.2 then .ok () else .throws

/-- keypoint_detection.cpp 433-470: the body of the loop for window `i`, with the parts of the image and of the mask that
it takes. -/
def searchWindow (ws : List Window) (counts : List ℕ) (image mask : ℕ × ℕ) (free : Pixel → Bool)
    (raw : ℕ → Bool → List Key) (i : ℕ) : Outcome (List Key) :=
  match ws[i]?, counts[i]? with
  | some w, some already =>
    if already < perCell then
      (part image w).bind fun _ => (part mask w).bind fun _ => .ok (detectInWindow w already free (raw i))
    else .ok []
  | _, _ => .ok []

/-- The windows searched in this order. -/
def searchAll (ws : List Window) (counts : List ℕ) (image mask : ℕ × ℕ) (free : Pixel → Bool)
    (raw : ℕ → Bool → List Key) : List ℕ → Outcome (List Key)
  | [] => .ok []
  | i :: is =>
    (searchWindow ws counts image mask free raw i).bind fun a =>
    (searchAll ws counts image mask free raw is).bind fun b => .ok (a ++ b)

/-- keypoint_detection.cpp 404-474 (`perform_keypoint_detection`, noexcept) of a tracker with the windows `ws`, for an
image of `size`.  The other arguments are those of `KeypointDetection.detect`. -/
def perform (s : Statics) (ws : List Window) (size : ℕ × ℕ) (disc : Pixel → Pixel → Bool) (tracked : List Pixel)
    (raw : ℕ → Bool → List Key) (order : List ℕ) : Outcome (Statics × List Key) :=
  let mask := s.mask.getD size
  let counts := countInWindows ws tracked (List.replicate ws.length 0)
  ((searchAll ws counts size mask (allowed disc tracked) raw order).bind fun keys =>
    .ok ({ s with mask := some mask }, removeDuplicated keys)).noexcept

/-- One tracker after another, each with the size of its images: the variables after they were built and searched an
image. -/
def usedBy : List (ℕ × ℕ) → Statics → Statics
  | [], s => s
  | size :: rest, s =>
    let s := (construct size s).1
    usedBy rest { s with mask := some (s.mask.getD size) }

end RgbdSlam.KeypointStatics

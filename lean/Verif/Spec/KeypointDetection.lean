import Verif.Model.KeypointDetection
/-
What is expected of keypoint tracking and detection.
-/
namespace RgbdSlam.KeypointDetection

open Keypoints (Pt Tracked Flow)

/-- Pixel `(col, row)` is the pixel nearest to `p` (half-way cases go to the larger coordinate). -/
def Nearest (p : Pt) (col row : Nat) : Prop :=
  (col : Rat) - 1 / 2 ≤ p.x ∧ p.x < (col : Rat) + 1 / 2 ∧
  (row : Rat) - 1 / 2 ≤ p.y ∧ p.y < (row : Rat) + 1 / 2

/-- Both optical flows succeeded for the point, it is still in the image and it comes back to at most 30
pixels from where it was. -/
def StillTracked (cols rows : Nat) (back : Pt → Flow) (t : Tracked) (f : Flow) : Prop :=
  f.status = 1 ∧ (0 ≤ f.pt.x ∧ f.pt.x < cols ∧ 0 ≤ f.pt.y ∧ f.pt.y < rows) ∧
  (back f.pt).status = 1 ∧
  (t.pt.x - (back f.pt).pt.x) * (t.pt.x - (back f.pt).pt.x) +
    (t.pt.y - (back f.pt).pt.y) * (t.pt.y - (back f.pt).pt.y) ≤ 900

/-- A pixel of the image. -/
def InImage (width height : Nat) (p : Pixel) : Prop :=
  0 ≤ p.x ∧ p.x < width ∧ 0 ≤ p.y ∧ p.y < height

/-- Number of the given pixels in a window. -/
def tracksIn (w : Window) (tracked : List Pixel) : Nat := tracked.countP (w.contains ·)

/-- The keypoints found by the detectors are in their window. -/
def RawInside (width height : Nat) (raw : Nat → Bool → List Key) : Prop :=
  ∀ i w, (windows width height)[i]? = some w → ∀ b, ∀ k ∈ raw i b,
    0 ≤ k.pos.x ∧ k.pos.x < w.width ∧ 0 ≤ k.pos.y ∧ k.pos.y < w.height

/-- An order in which the nine windows may finish. -/
def Schedule (order : List Nat) : Prop := order.Perm (List.range 9)

end RgbdSlam.KeypointDetection

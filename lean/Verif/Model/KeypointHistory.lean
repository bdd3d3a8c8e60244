import Verif.Model.Keypoints

/-
The handler of the keypoints of a frame is a `static` variable: it is filled again for each frame.
-/
namespace RgbdSlam.Keypoints

variable {Desc : Type}

/-- What is known at the end of `compute_keypoints` (keypoint_detection.cpp 158-250): the depth image, the keypoints found
in the image with their descriptors, and those followed by the optical flow. -/
structure FramePoints (Desc : Type) where
  image : DepthImage
  detected : List Pt
  descs : List Desc
  tracked : List Tracked

/-- keypoint_detection.cpp 252-259: the `static` handler is made for the first image (`none`: no frame yet), then filled
with the keypoints of the frame. -/
def fillStatic (f : FramePoints Desc) (handler : Option (Handler Desc)) : Outcome (Handler Desc) :=
  set f.image f.detected f.descs f.tracked (handler.getD (create f.image.cols f.image.rows))

/-- The handler after some frames, oldest first. -/
def afterFrames : List (FramePoints Desc) → Option (Handler Desc) → Outcome (Option (Handler Desc))
  | [], handler => .ok handler
  | f :: fs, handler => (fillStatic f handler).bind fun h => afterFrames fs (some h)

end RgbdSlam.Keypoints

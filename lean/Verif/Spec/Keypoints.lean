import Verif.Model.Keypoints
/-
What a search among detected keypoints is supposed to see.
-/
namespace RgbdSlam.Keypoints

/-- Detected keypoint number `i` is not matched yet and at most 30 pixels away from `p`. -/
def Candidate (detected : List Pt) (flags : List Bool) (p : Pt) (i : Nat) : Prop :=
  flags[i]? = some false ∧ ∃ q, detected[i]? = some q ∧
    (q.x - p.x) * (q.x - p.x) + (q.y - p.y) * (q.y - p.y) ≤ 900

/-- Number of 31 pixel cells needed for a length of `n` pixels. -/
def cellsFor (n : Nat) : Nat := (n + 30) / 31

end RgbdSlam.Keypoints

namespace RgbdSlam.Keypoints

/-- The keypoint handlers of a program run on images of `cols` x `rows` pixels (the handler is a static
object, built once and filled again for each frame, keypoint_detection.cpp:252-255). -/
inductive Reached {Desc : Type} (cols rows : Nat) : Handler Desc → Prop
  | create : Reached cols rows (create cols rows)
  | set {im detected descs tracked h h'} : Reached cols rows h →
      set im detected descs tracked h = .ok h' → Reached cols rows h'

end RgbdSlam.Keypoints

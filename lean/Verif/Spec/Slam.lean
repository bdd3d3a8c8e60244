/-
Vocabulary of the frame-history properties, independent of the implementation's counters.
A history is the list of per-frame answers, oldest first.
-/
namespace RgbdSlam.Spec.Slam

/-- Number of `false` at the end of a history: the current run of failures. -/
def trailingFailures (h : List Bool) : Nat := (h.reverse.takeWhile (fun b => !b)).length

/-- Tracking is lost: at most one frame was treated, or, the first frame aside (it is never
tracked: there is nothing to track against), the last four or more frames all failed. -/
def Lost (tracked : List Bool) : Prop :=
  tracked.length ≤ 1 ∨ 4 ≤ trailingFailures tracked.tail

/-- The most recent pose of a history of optional poses, or the start pose. -/
def lastPose {Pose : Type} (start : Pose) (h : List (Option Pose)) : Pose :=
  (h.reverse.findSome? id).getD start

end RgbdSlam.Spec.Slam

import Verif.Model.Cylinder

/-
Vocabulary for the choice of the inliers of a cylinder.
-/
namespace RgbdSlam.Cylinder

/-- The patch is within the tolerance of the hypothesis. -/
def Near (d : Nat → Num) (i : Nat) : Prop := ∃ x, d i = some x ∧ x < maxDistance

/-- The distance of a patch to a hypothesis, cut at the tolerance. -/
def truncated : Num → Rat
  | some x => min x maxDistance
  | none => maxDistance

/-- The cost of a hypothesis: the sum of the cut distances of the patches left. -/
def cost (left : List Nat) (d : Nat → Num) : Rat := (left.map fun i => truncated (d i)).sum

end RgbdSlam.Cylinder
